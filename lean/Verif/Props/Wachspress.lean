import Verif.Proofs.Wachspress
import Verif.Props.AffineEdges

/-!
# The interpolated value, and interpolation in other coordinates: C102, C103
-/

set_option linter.unusedSectionVars false

namespace Celltree

variable {K : Type} [Field K] [LinearOrder K] [IsStrictOrderedRing K] {env : Env K} {vertices : List (Pt K)} {faces : IntArr}
  {fill nBuckets cellsPerLeaf : Int} {t : CellTree K}

theorem StrictFace.stored (hm : GoodMesh env vertices faces fill)
    (hconv : ∀ r ∈ faces.rows, StrictlyConvex (facePts vertices fill r) ∨ StrictlyConvex (facePts vertices fill r).reverse)
    {r B : List Int} (hr : r ∈ faces.rows) (hB : B = rowIndices fill r ∨ B = (rowIndices fill r).reverse)
    (hc : ConvexPoly (B.map (posOf vertices))) : StrictlyConvex (B.map (posOf vertices)) := by
  have e := facePts_posOf (hm.valid.rows r hr)
  have hd := hconv r hr
  rw [e, ← List.map_reverse] at hd
  have : StrictlyConvex (B.map (posOf vertices)) ∨ StrictlyConvex (B.map (posOf vertices)).reverse := by
    rcases hB with rfl | rfl
    · rw [← List.map_reverse]; exact hd
    · rw [← List.map_reverse, List.reverse_reverse]; exact hd.symm
  rcases this with h | h
  · exact h
  · exact absurd hc.nondeg (by
      rintro ⟨a, b, c, hsub, ho⟩
      have := h.turn c b a (by simpa using List.reverse_sublist.2 hsub)
      rw [show orient c b a = - orient a b c from by unfold orient; ring] at this
      linarith)

theorem stored_sides_mem {r B : List Int} (h : B = rowIndices fill r ∨ B = (rowIndices fill r).reverse) :
    (∀ v, v ∈ B ↔ v ∈ rowIndices fill r) ∧
    ∀ v w, ((v, w) ∈ sides (rowIndices fill r) ∨ (w, v) ∈ sides (rowIndices fill r)) ↔ ((v, w) ∈ sides B ∨ (w, v) ∈ sides B) := by
  rcases h with rfl | rfl
  · exact ⟨fun _ => Iff.rfl, fun _ _ => Iff.rfl⟩
  · refine ⟨fun _ => by simp, fun v w => ?_⟩
    have : ∀ a b : Int, (b, a) ∈ sides (rowIndices fill r).reverse ↔ (a, b) ∈ sides (rowIndices fill r) := by
      intro a b
      rw [(sides_reverse _).mem_iff, List.mem_map]
      constructor
      · rintro ⟨⟨x, y⟩, h1, h2⟩
        simp only [Prod.swap, Prod.mk.injEq] at h2
        obtain ⟨rfl, rfl⟩ := h2
        exact h1
      · exact fun h => ⟨_, h, rfl⟩
    rw [this, this]
    exact or_comm

/-- **C102** (exact arithmetic): on a mesh of strictly convex faces, a point is located in a face that contains it, if there is
one. If it is on no side of this face, the value interpolated with the returned weights is the Wachspress mean, for triangles
and for all other faces, clockwise or counter-clockwise; if it is on a side, values are interpolated linearly along the side.
(The condition on the points is that of `C61_located_partial`.) -/
theorem C102_value (hm : GoodMesh env vertices faces fill) (ht : Makes env vertices faces fill nBuckets cellsPerLeaf t)
    (hsq : IsSqrt env.sqrt)
    (hconv : ∀ r ∈ faces.rows, StrictlyConvex (facePts vertices fill r) ∨ StrictlyConvex (facePts vertices fill r).reverse)
    {points : List (Pt K)} {tol : Option K} {τ : K} (htol : t.tolerance env tol = .ok τ) (hτ : 0 < τ)
    (hon : ∀ p ∈ points, ∀ r ∈ faces.rows, Accepts τ (facePts vertices fill r) p →
      ∀ s ∈ sides (facePts vertices fill r), NearLine τ s.1 s.2 p → OnSide p s)
    {sched sched1 : List Nat} (hs : sched.Perm (List.range points.length)) (hs1 : sched1.Perm (List.range points.length)) :
    ∃ idx rows, t.barycentricWeights env points tol sched sched1 = .ok (idx, rows) ∧ idx.length = points.length ∧
      rows.length = points.length ∧
      ∀ (i : Nat) p v row, points[i]? = some p → idx[i]? = some v → rows[i]? = some row →
        (v = -1 ↔ ∀ r ∈ faces.rows, ¬ InFace (facePts vertices fill r) p) ∧
        (v ≠ -1 → ∃ (j : Nat) (r face : List Int), v = j ∧ faces.rows[j]? = some r ∧ t.data.elements[j]? = some face ∧
          InFace (facePts vertices fill r) p ∧
          ((∀ s ∈ sides (facePts vertices fill r), ¬ OnSide p s) →
            ∀ f : Int → K, interpolated f face row = wachspressValue (posOf vertices) f (rowIndices fill r) p) ∧
          ∀ v w u, ((v, w) ∈ sides (rowIndices fill r) ∨ (w, v) ∈ sides (rowIndices fill r)) →
            p = lineAt (posOf vertices v) (posOf vertices w) u →
            ∀ f : Int → K, interpolated f face row = (1 - u) * f v + u * f w) := by
  obtain ⟨idx, rows, h1, h2, h3, h4⟩ := value_rows hm ht hsq (fun r hr => StrictFace.sides_ok (hconv r hr)) htol hτ hon hs hs1
  refine ⟨idx, rows, h1, h2, h3, fun i p v row hp hv hrow => ?_⟩
  obtain ⟨g1, g2⟩ := h4 i p v row hp hv hrow
  refine ⟨g1, fun hne => ?_⟩
  obtain ⟨j, r, B, k1, k2, k3, k4, k5, k6, k7, k8, k9, k10⟩ := g2 hne
  have hr := List.mem_of_getElem? k2
  have hstr := StrictFace.stored hm hconv hr k4 k6
  obtain ⟨_, _, _, l1, l2, l3, l4⟩ := stored_row hm ht k2
  have rg : ∀ v ∈ B, 0 ≤ v ∧ v < vertices.length := fun v hv => (hm.valid.rows r hr).range v (((stored_sides_mem k4).1 v).1 hv)
  refine ⟨j, r, _, k1, k2, k3, k8, fun hno f => ?_, fun v w u hvw hpu f => ?_⟩
  · have hno' : ∀ s ∈ sides (B.map (posOf vertices)), ¬ OnSide p s := by
      rw [← k5]
      exact stored_sides (Q := fun s => ¬ OnSide p s) (fun s h h' => h (onSide_swap.1 h')) l2 hno
    have hin : InPoly (B.map (posOf vertices)) p := k7.inPoly rfl k6
    have hrep : ∀ s ∈ sides (B.map (posOf vertices)), s.1 ≠ s.2 := fun s hs => (hstr.two_on_line hs).1
    have hacc : Accepts τ (facePts vertices fill r) p := by
      have h := (accepts_iff_inPoly k6 hτ fun _ _ _ => hin).2 hin
      rw [← k5] at h
      rcases l2 with l2 | l2 <;> rw [l2] at h
      · exact h
      · exact (accepts_reverse τ p _).1 h
    have hnear : ∀ s ∈ sides (B.map (posOf vertices)), ¬ NearLine τ s.1 s.2 p := by
      rw [← k5] at hno' ⊢
      have := stored_sides (Q := fun s => NearLine τ s.1 s.2 p → OnSide p s)
        (fun s h h' => onSide_swap.2 (h (nearLine_swap.1 h'))) l2 (hon p (List.mem_of_getElem? hp) r hr hacc)
      exact fun s hs hn => hno' s hs (this s hs hn)
    have hint : InInterior (B.map (posOf vertices)) p := by
      intro s hs _
      refine lt_of_le_of_ne (hin s hs) fun h0 => hnear s hs ?_
      unfold NearLine
      rw [← h0]
      have := dist2_pos (hrep s hs)
      have : 0 < τ ^ 2 * dist2 s.1 s.2 := by positivity
      simpa using this
    rw [k10]
    rw [inside_value (env := env) k6 hrep hint hnear (m := faces.ncol) (by rw [k5, List.length_map] at l1; exact l1) (by rw [← k5]; exact k9) f]
    rcases k4 with rfl | rfl
    · rfl
    · rw [wachspressValue_reverse]
      have := hstr.length
      simp only [List.length_map, List.length_reverse] at this
      omega
  · rw [k10, (shared_value hstr rg k7 f).2 v w (((stored_sides_mem k4).2 v w).1 hvw) u hpu]

theorem Affine.onSide {A : Affine K} (hA : A.det ≠ 0) {p : Pt K} {s : Pt K × Pt K} :
    OnSide (A.pt p) (Prod.map A.pt A.pt s) ↔ OnSide p s := by
  unfold OnSide
  refine exists_congr fun u => and_congr_right fun _ => and_congr_right fun _ => ?_
  simp only [Prod.map_fst, Prod.map_snd]
  rw [Affine.lineAt]
  exact (Affine.injective hA).eq_iff

theorem posOf_affine (A : Affine K) {v : Int} (h : 0 ≤ v ∧ v < vertices.length) : posOf (vertices.map A.pt) v = A.pt (posOf vertices v) := by
  unfold posOf
  have hlt : v.toNat < vertices.length := by omega
  rw [List.getElem?_map, List.getElem?_eq_getElem hlt]
  rfl

theorem wachspressValue_congr {P Q : Int → Pt K} {l : List Int} (h : ∀ v ∈ l, P v = Q v) (f : Int → K) (p : Pt K) :
    wachspressValue P f l p = wachspressValue Q f l p := by
  have hmem : ∀ q ∈ cornersOf l, P q.1 = Q q.1 ∧ P q.2.1 = Q q.2.1 ∧ P q.2.2 = Q q.2.2 := by
    intro q hq
    unfold cornersOf at hq
    obtain ⟨h1, h2⟩ := List.of_mem_zip (show (q.1, q.2) ∈ _ from hq)
    obtain ⟨h3, h4⟩ := List.of_mem_zip (show (q.2.1, q.2.2) ∈ _ from h2)
    exact ⟨h _ (List.mem_rotate.1 h1), h _ h3, h _ (List.mem_rotate.1 h4)⟩
  unfold wachspressValue
  congr 2
  all_goals
    refine List.map_congr_left fun q hq => ?_
    obtain ⟨e1, e2, e3⟩ := hmem q hq
    rw [e1, e2, e3]

/-- **C103** (exact arithmetic): mesh and points are transformed by an invertible affine map. On a conforming mesh of strictly
convex faces the interpolated values are the same in both coordinates, also for points on shared sides and vertices. The
trees may have different parameters. (The condition on the points is that of `C61_located_partial`, in both coordinates.) -/
theorem C103_affine {A : Affine K} (hA : A.det ≠ 0) (hm : GoodMesh env vertices faces fill)
    (ht : Makes env vertices faces fill nBuckets cellsPerLeaf t) (hm' : GoodMesh env (vertices.map A.pt) faces fill)
    {nBuckets' cellsPerLeaf' : Int} {t' : CellTree K} (ht' : Makes env (vertices.map A.pt) faces fill nBuckets' cellsPerLeaf' t')
    (hsq : IsSqrt env.sqrt)
    (hconv : ∀ r ∈ faces.rows, StrictlyConvex (facePts vertices fill r) ∨ StrictlyConvex (facePts vertices fill r).reverse)
    (hconf : Conforming vertices fill faces)
    {points : List (Pt K)} {tol tol' : Option K} {τ τ' : K} (htol : t.tolerance env tol = .ok τ) (hτ : 0 < τ)
    (htol' : t'.tolerance env tol' = .ok τ') (hτ' : 0 < τ')
    (hon : ∀ p ∈ points, ∀ r ∈ faces.rows, Accepts τ (facePts vertices fill r) p →
      ∀ s ∈ sides (facePts vertices fill r), NearLine τ s.1 s.2 p → OnSide p s)
    (hon' : ∀ p ∈ points, ∀ r ∈ faces.rows, Accepts τ' (facePts (vertices.map A.pt) fill r) (A.pt p) →
      ∀ s ∈ sides (facePts (vertices.map A.pt) fill r), NearLine τ' s.1 s.2 (A.pt p) → OnSide (A.pt p) s)
    {sched sched1 sched' sched1' : List Nat} (hs : sched.Perm (List.range points.length))
    (hs1 : sched1.Perm (List.range points.length)) (hs' : sched'.Perm (List.range points.length))
    (hs1' : sched1'.Perm (List.range points.length)) :
    ∃ idx rows idx' rows', t.barycentricWeights env points tol sched sched1 = .ok (idx, rows) ∧
      t'.barycentricWeights env (points.map A.pt) tol' sched' sched1' = .ok (idx', rows') ∧
      idx.length = points.length ∧ rows.length = points.length ∧ idx'.length = points.length ∧ rows'.length = points.length ∧
      ∀ (i : Nat) p v row v' row', points[i]? = some p → idx[i]? = some v → rows[i]? = some row → idx'[i]? = some v' →
        rows'[i]? = some row' → (v = -1 ↔ v' = -1) ∧
        (v ≠ -1 → ∃ (j j' : Nat) (face face' : List Int), v = j ∧ v' = j' ∧ t.data.elements[j]? = some face ∧
          t'.data.elements[j']? = some face' ∧ ∀ f : Int → K, interpolated f face row = interpolated f face' row') := by
  have hconv' : ∀ r ∈ faces.rows, StrictlyConvex (facePts (vertices.map A.pt) fill r) ∨
      StrictlyConvex (facePts (vertices.map A.pt) fill r).reverse := by
    intro r hr
    rw [facePts_map]
    exact Affine.strictlyConvex hA (hconv r hr)
  have hl : (points.map A.pt).length = points.length := List.length_map _
  obtain ⟨idx, rows, h1, h2, h3, h4⟩ := C102_value hm ht hsq hconv htol hτ hon hs hs1
  obtain ⟨idx', rows', h1', h2', h3', h4'⟩ := C102_value hm' ht' hsq hconv' htol' hτ' (points := points.map A.pt) (by
    intro p hp
    obtain ⟨q, hq, rfl⟩ := List.mem_map.1 hp
    exact hon' q hq) (sched := sched') (sched1 := sched1') (by rw [hl]; exact hs') (by rw [hl]; exact hs1')
  rw [hl] at h2' h3'
  refine ⟨idx, rows, idx', rows', h1, h1', h2, h3, h2', h3', fun i p v row v' row' hp hv hrow hv' hrow' => ?_⟩
  obtain ⟨g1, g2⟩ := h4 i p v row hp hv hrow
  obtain ⟨g1', g2'⟩ := h4' i (A.pt p) v' row' (by rw [List.getElem?_map, hp]; rfl) hv' hrow'
  have gg : v = -1 ↔ v' = -1 := by
    rw [g1, g1']
    refine forall₂_congr fun r _ => not_congr ?_
    rw [facePts_map, Affine.inFace hA]
  refine ⟨gg, fun hne => ?_⟩
  obtain ⟨j, r, face, k1, k2, k3, k4, k5, k6⟩ := g2 hne
  obtain ⟨j', r', face', l1, l2, l3, l4, l5, l6⟩ := g2' fun e => hne (gg.2 e)
  refine ⟨j, j', face, face', k1, l1, k3, l3, fun f => ?_⟩
  rw [facePts_map, Affine.inFace hA] at l4
  have mr := List.mem_of_getElem? k2
  have mr' := List.mem_of_getElem? l2
  have rg := (hm.valid.rows r mr).range
  have rg' := (hm.valid.rows r' mr').range
  -- values on a side
  have line : ∀ v w u, ((v, w) ∈ sides (rowIndices fill r) ∨ (w, v) ∈ sides (rowIndices fill r)) →
      ((v, w) ∈ sides (rowIndices fill r') ∨ (w, v) ∈ sides (rowIndices fill r')) →
      p = lineAt (posOf vertices v) (posOf vertices w) u → interpolated f face row = interpolated f face' row' := by
    intro v w u m1 m2 e
    rw [k6 v w u m1 e f, l6 v w u m2 ?_ f]
    have mv : v ∈ rowIndices fill r' ∧ w ∈ rowIndices fill r' :=
      m2.elim (fun h => mem_sides_mem h) fun h => (mem_sides_mem h).symm
    rw [posOf_affine A (rg' v mv.1), posOf_affine A (rg' w mv.2), Affine.lineAt, e]
  by_cases hj : j = j'
  · subst hj
    rw [k2] at l2; cases l2
    by_cases hside : ∃ s ∈ sides (facePts vertices fill r), OnSide p s
    · obtain ⟨s, hs, u, _, _, e⟩ := hside
      rw [facePts_posOf (hm.valid.rows r mr), sides_map, List.mem_map] at hs
      obtain ⟨⟨v, w⟩, hvw, rfl⟩ := hs
      exact line v w u (Or.inl hvw) (Or.inl hvw) e
    · push Not at hside
      rw [k5 hside f, l5 ?_ f]
      · rw [wachspressValue_congr (fun v hv => posOf_affine A (rg v hv)), wachspressValue_affine hA]
      · intro s hs
        rw [facePts_map, sides_map, List.mem_map] at hs
        obtain ⟨s, hs, rfl⟩ := hs
        rw [Affine.onSide hA]
        exact hside s hs
  · rcases hconf j j' r r' hj k2 l2 p k4 l4 with ⟨v, v1, v2, v3⟩ | ⟨v, w, a, b, v1, v2, v3, v4, u, _, _, v5⟩
    · have e : posOf vertices v = p := by unfold posOf; rw [v3]; rfl
      have z : ∀ q w : Pt K, q = lineAt q w 0 := by intro q w; unfold lineAt; apply Pt.ext' <;> simp
      obtain ⟨w, hw⟩ := mem_sides_of_mem v1
      obtain ⟨w', hw'⟩ := mem_sides_of_mem v2
      rw [k6 v w 0 (Or.inl hw) (by rw [e]; exact z _ _) f, l6 v w' 0 (Or.inl hw') (by
        rw [posOf_affine A (rg v v1), e]; exact z _ _) f]
      ring
    · have e1 : posOf vertices v = a := by unfold posOf; rw [v3]; rfl
      have e2 : posOf vertices w = b := by unfold posOf; rw [v4]; rfl
      exact line v w u v1 v2 (by rw [e1, e2]; exact v5)

set_option synthInstance.maxSize 1000 in
/-- A face with four sides of which two are parallel, given clockwise, and a point inside: the weights belong to the vertices
0, 1, 2, 3 of the tree, and the interpolated value is the Wachspress mean over the vertices in the order given. -/
example : ∃ t : CellTree ℚ, Makes Ex.qEnv [⟨0, 0⟩, ⟨4, 0⟩, ⟨2, 2⟩, ⟨0, 2⟩] ⟨4, [[3, 2, 1, 0]]⟩ (-1) 4 2 t ∧
    t.data.elements[0]? = some [0, 1, 2, 3] ∧
    t.barycentricWeights Ex.qEnv [⟨1, 1⟩] (some (1 / 100)) [0] [0] = .ok ([0], [[1 / 3, 1 / 6, 1 / 6, 1 / 3]]) ∧
    wachspressValue (posOf [⟨0, 0⟩, ⟨4, 0⟩, ⟨2, 2⟩, ⟨0, 2⟩]) (fun v => if v = 1 then 6 else if v = 2 then 12 else 0) [3, 2, 1, 0]
      (⟨1, 1⟩ : Pt ℚ) = 3 := by
  obtain ⟨t, h1, h2⟩ := bind_eq_ok.1 (show (CellTree.init Ex.qEnv [⟨0, 0⟩, ⟨4, 0⟩, ⟨2, 2⟩, ⟨0, 2⟩] ⟨4, [[3, 2, 1, 0]]⟩ (-1) 4 2 [0] >>=
    fun t => t.barycentricWeights Ex.qEnv [⟨1, 1⟩] (some (1 / 100)) [0] [0] >>= fun x => .ok (t.data.elements[0]?, x)) =
      .ok (some [0, 1, 2, 3], [0], [[1 / 3, 1 / 6, 1 / 6, 1 / 3]]) by decide +kernel)
  obtain ⟨x, h3, h4⟩ := bind_eq_ok.1 h2
  obtain ⟨h5, rfl⟩ := Prod.mk.inj (Except.ok.inj h4)
  exact ⟨t, ⟨_, by decide, h1⟩, h5, h3, by decide +kernel⟩

/-- The example mesh, mirrored and scaled by two, with a point on a shared side and one inside. -/
theorem Ex.diagonal_on : ∀ p ∈ [(⟨2, 1⟩ : Pt ℝ), ⟨1, 1⟩], ∀ r ∈ realFaces.rows,
    Accepts (1 / 100) (facePts (realVerts.map diagonal.pt) (-1) r) (diagonal.pt p) →
    ∀ s ∈ sides (facePts (realVerts.map diagonal.pt) (-1) r), NearLine (1 / 100) s.1 s.2 (diagonal.pt p) → OnSide (diagonal.pt p) s := by
  have hd : Ex.diagonal.det ≠ 0 := by norm_num [Ex.diagonal, Affine.det]
  have key : ∀ (p : Pt ℝ) (l : List (Pt ℝ)), (∀ s ∈ sides l, NearLine (1 / 200) s.1 s.2 p → OnSide p s) →
      ∀ s ∈ sides (l.map diagonal.pt), NearLine (1 / 100) s.1 s.2 (diagonal.pt p) → OnSide (diagonal.pt p) s := by
    intro p l h s hs hn
    rw [sides_map, List.mem_map] at hs
    obtain ⟨s, hs, rfl⟩ := hs
    rw [Affine.onSide hd]
    refine h s hs ?_
    simp only [NearLine, Prod.map_fst, Prod.map_snd, dist2, orient, diagonal, Affine.pt] at hn ⊢
    ring_nf at hn ⊢
    linarith
  intro p hp
  simp only [List.mem_cons, List.not_mem_nil, or_false] at hp
  simp only [facePts_map]
  rcases hp with rfl | rfl
  · refine real_pts (P := fun l => Accepts (1 / 100) (l.map diagonal.pt) (diagonal.pt ⟨2, 1⟩) → ∀ s ∈ sides (l.map diagonal.pt),
      NearLine (1 / 100) s.1 s.2 (diagonal.pt ⟨2, 1⟩) → OnSide (diagonal.pt ⟨2, 1⟩) s)
      ?_ ?_ ?_ <;> (intro _; refine key _ _ ?_; norm_num [sides, pairs, NearLine, orient, dist2])
    · exact ⟨1 / 2, by norm_num, by norm_num, by norm_num [lineAt]⟩
    · exact ⟨1 / 2, by norm_num, by norm_num, by norm_num [lineAt]⟩
  · refine real_pts (P := fun l => Accepts (1 / 100) (l.map diagonal.pt) (diagonal.pt ⟨1, 1⟩) → ∀ s ∈ sides (l.map diagonal.pt),
      NearLine (1 / 100) s.1 s.2 (diagonal.pt ⟨1, 1⟩) → OnSide (diagonal.pt ⟨1, 1⟩) s)
      ?_ ?_ ?_ <;> (intro _; refine key _ _ ?_; norm_num [sides, pairs, NearLine, orient, dist2])

/-- The hypotheses of C103 are met by the example mesh and two points. -/
example : ∃ t t' idx rows idx' rows', Makes Ex.realEnv Ex.realVerts Ex.realFaces (-1) 4 1 t ∧
    Makes Ex.realEnv (Ex.realVerts.map Ex.diagonal.pt) Ex.realFaces (-1) 4 1 t' ∧
    t.barycentricWeights Ex.realEnv [⟨2, 1⟩, ⟨1, 1⟩] (some (1 / 100)) [0, 1] [1, 0] = .ok (idx, rows) ∧
    t'.barycentricWeights Ex.realEnv ([⟨2, 1⟩, ⟨1, 1⟩].map Ex.diagonal.pt) (some (1 / 100)) [1, 0] [0, 1] = .ok (idx', rows') ∧
    ∀ (v : Int) row (v' : Int) row', idx[0]? = some v → rows[0]? = some row → idx'[0]? = some v' → rows'[0]? = some row' → v ≠ -1 →
      ∃ (j j' : Nat) (face face' : List Int), v = j ∧ v' = j' ∧ t.data.elements[j]? = some face ∧
        t'.data.elements[j']? = some face' ∧ ∀ f : Int → ℝ, interpolated f face row = interpolated f face' row' := by
  obtain ⟨t, ht⟩ := Ex.real_makes
  obtain ⟨t', ht'⟩ := Ex.diagonal_makes
  obtain ⟨idx, rows, idx', rows', h1, h2, _, _, _, _, h3⟩ := C103_affine (A := Ex.diagonal) (by norm_num [Ex.diagonal, Affine.det]) Ex.real_good ht
    ⟨by rw [List.length_map]; exact Ex.real_valid, fun _ _ _ _ => ⟨trivial, trivial⟩, trivial, trivial⟩ ht'
    (fun x hx => ⟨Real.sqrt_nonneg x, Real.mul_self_sqrt hx⟩) Ex.real_strict Ex.real_conforming (tol := some (1 / 100))
    (tol' := some (1 / 100)) (τ := 1 / 100) (τ' := 1 / 100) rfl (by norm_num) rfl (by norm_num) Ex.real_on Ex.diagonal_on (sched := [0, 1])
    (sched1 := [1, 0]) (sched' := [1, 0]) (sched1' := [0, 1]) (by decide) (by decide) (by decide) (by decide)
  exact ⟨t, t', idx, rows, idx', rows', ht, ht', h1, h2, fun v row v' row' e1 e2 e3 e4 hne =>
    (h3 0 _ v row v' row' rfl e1 e2 e3 e4).2 hne⟩

end Celltree
