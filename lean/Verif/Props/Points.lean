import Verif.Proofs.LocatePoints
import Verif.Props.Boxes

/-!
# Point location: C06 – C09, C26 – C28
-/

set_option linter.unusedSectionVars false

namespace Celltree

section
variable {F : Type} [Add F] [Sub F] [Mul F] [Div F] [Neg F] [Zero F] [One F] [IntCast F]
  [LT F] [LE F] [BEq F] [DecidableLT F] [DecidableLE F] [NumOrd F]
variable {env : Env F} {vertices : List (Pt F)} {faces : IntArr} {fill nBuckets cellsPerLeaf : Int} {t : CellTree F}
variable {points : List (Pt F)} {tol : F} {sched : List Nat} {res : List Int}

/-- **C06** (any rounding): an index that is returned is a face of the mesh, and the test of the code accepts the point
for that face, given in its own order or in reverse order. -/
theorem C06_located_point_passes_test (hm : GoodMesh env vertices faces fill)
    (ht : Makes env vertices faces fill nBuckets cellsPerLeaf t) (hs : sched.Perm (List.range points.length))
    (hr : t.locatePoints env points (some tol) sched = .ok res) {i : Nat} {p : Pt F} {v : Int}
    (hp : points[i]? = some p) (hv : res[i]? = some v) (h0 : v ≠ -1) :
    ∃ (j : Nat) (r : List Int), v = j ∧ faces.rows[j]? = some r ∧ ∃ poly,
      (poly = facePts vertices fill r ∨ poly = (facePts vertices fill r).reverse) ∧
      pointInPolygonOrOnEdge p poly tol = .ok true := by
  have hl := ((locatePoints_ok_iff hs).1 hr).2 i p v hp hv
  obtain ⟨hcol, _, bt, hc⟩ := ht.constructed' hm
  rcases locatePoint_cases ht hm p tol with ⟨j, r, h1, h2, h3⟩ | ⟨h1, h2⟩ | ⟨j, r, e, h1, h2, h3⟩
  · rw [hl] at h1
    exact ⟨j, r, Except.ok.inj h1, h2, _, (hc.elements.polygon hcol h2).2.1, h3⟩
  · rw [hl] at h1
    exact (h0 (Except.ok.inj h1)).elim
  · rw [hl] at h1
    cases h1

/-- **C07** (any rounding): if `-1` is returned, the test of the code rejects the point for every face whose closed
bounding box contains it. -/
theorem C07_missed_point_fails_tests (hm : GoodMesh env vertices faces fill)
    (ht : Makes env vertices faces fill nBuckets cellsPerLeaf t) (hs : sched.Perm (List.range points.length))
    (hr : t.locatePoints env points (some tol) sched = .ok res) {i : Nat} {p : Pt F}
    (hp : points[i]? = some p) (hv : res[i]? = some (-1)) {j : Nat} {r : List Int} (hj : faces.rows[j]? = some r)
    (hb : InBoxOf (facePts vertices fill r) p) :
    ∃ poly, (poly = facePts vertices fill r ∨ poly = (facePts vertices fill r).reverse) ∧
      pointInPolygonOrOnEdge p poly tol = .ok false := by
  have hl := ((locatePoints_ok_iff hs).1 hr).2 i p _ hp hv
  obtain ⟨hcol, _, bt, hc⟩ := ht.constructed' hm
  rcases locatePoint_cases ht hm p tol with ⟨j, r, h1, h2, h3⟩ | ⟨h1, h2⟩ | ⟨j, r, e, h1, h2, h3⟩
  · rw [hl] at h1
    have := Except.ok.inj h1
    omega
  · exact ⟨_, (hc.elements.polygon hcol hj).2.1, h2 j r hj hb⟩
  · rw [hl] at h1
    cases h1

/-- **C08** (any rounding): if the test of the code accepts the point for face `k`, whose closed bounding box contains
the point, and rejects it for every other face, then every tree returns `k`. -/
theorem C08_unique_face_any_tree (hm : GoodMesh env vertices faces fill)
    (ht : Makes env vertices faces fill nBuckets cellsPerLeaf t) (hs : sched.Perm (List.range points.length))
    {i k : Nat} {p : Pt F} {rk : List Int} (hp : points[i]? = some p) (hk : faces.rows[k]? = some rk)
    (hb : InBoxOf (facePts vertices fill rk) p)
    (hin : ∀ poly, poly = facePts vertices fill rk ∨ poly = (facePts vertices fill rk).reverse →
      pointInPolygonOrOnEdge p poly tol = .ok true)
    (hout : ∀ (j : Nat) (r : List Int), j ≠ k → faces.rows[j]? = some r →
      ∀ poly, poly = facePts vertices fill r ∨ poly = (facePts vertices fill r).reverse →
        pointInPolygonOrOnEdge p poly tol = .ok false)
    (hr : t.locatePoints env points (some tol) sched = .ok res) : res[i]? = some (k : Int) := by
  obtain ⟨hlen, hall⟩ := (locatePoints_ok_iff hs).1 hr
  have hi : i < res.length := by rw [hlen]; exact (List.getElem?_eq_some_iff.1 hp).1
  have hl := hall i p res[i] hp (by simp)
  rw [List.getElem?_eq_getElem hi]
  obtain ⟨hcol, _, bt, hc⟩ := ht.constructed' hm
  rcases locatePoint_cases ht hm p tol with ⟨j, r, h1, h2, h3⟩ | ⟨h1, h2⟩ | ⟨j, r, e, h1, h2, h3⟩
  · rw [hl] at h1
    by_cases hjk : j = k
    · rw [Except.ok.inj h1, hjk]
    · rw [hout j r hjk h2 _ (hc.elements.polygon hcol h2).2.1] at h3
      cases h3
  · have := h2 k rk hk hb
    rw [hin _ (hc.elements.polygon hcol hk).2.1] at this
    cases this
  · rw [hl] at h1
    cases h1

/-- **C09** (any rounding): the call returns `res` exactly if there is one entry for every point, and this entry is what a
call with that point alone returns. -/
theorem C09_points_independent (hs : sched.Perm (List.range points.length)) :
    t.locatePoints env points (some tol) sched = .ok res ↔
      res.length = points.length ∧ ∀ (i : Nat) p v, points[i]? = some p → res[i]? = some v →
        t.locatePoints env [p] (some tol) [0] = .ok [v] := by
  rw [locatePoints_ok_iff hs]
  constructor <;> rintro ⟨h1, h2⟩ <;> refine ⟨h1, ?_⟩ <;> intro i p v hp hv
  · refine (locatePoints_ok_iff (points := [p]) (sched := [0]) (List.Perm.refl _)).2 ?_
    refine ⟨rfl, ?_⟩
    intro k q w hq hw
    cases k with
    | zero => simp at hq hw; subst hq hw; exact h2 i p v hp hv
    | succ k => simp at hq
  · exact ((locatePoints_ok_iff (List.Perm.refl _)).1 (h2 i p v hp hv)).2 0 p v rfl rfl

/-- **C09**: the same with the default tolerance. -/
theorem C09_points_independent_default (hs : sched.Perm (List.range points.length)) {τ : F}
    (hτ : t.tolerance env none = .ok τ) :
    t.locatePoints env points none sched = .ok res ↔
      res.length = points.length ∧ ∀ (i : Nat) p v, points[i]? = some p → res[i]? = some v →
        t.locatePoints env [p] none [0] = .ok [v] := by
  have e : ∀ (ps : List (Pt F)) s, t.locatePoints env ps none s = t.locatePoints env ps (some τ) s := by
    intro ps s
    unfold CellTree.locatePoints
    rw [hτ]; rfl
  simp only [e]
  exact C09_points_independent hs

/-- The search itself is safe: with any rounding the only exception is a division by zero in the point test, and there is
none if the differences of different y-coordinates are not zero. -/
theorem C06_no_crash (hm : GoodMesh env vertices faces fill)
    (ht : Makes env vertices faces fill nBuckets cellsPerLeaf t) (p : Pt F) (tol : F) :
    (∀ e, t.locatePoints env [p] (some tol) [0] = .error e → e = .zeroDiv) ∧
    ((∀ r ∈ faces.rows, SubNonzero ((facePts vertices fill r).map Pt.y)) →
      ∃ v, t.locatePoints env [p] (some tol) [0] = .ok [v]) := by
  have hone : ∀ e : Err, locatePoint p t.data tol = .error e → t.locatePoints env [p] (some tol) [0] = .error e := by
    intro e he
    have hb : (rd [p] 0 >>= fun point => locatePoint point t.data tol) = .error e := he
    simp only [CellTree.locatePoints, CellTree.tolerance, Celltree.locatePoints, prange, ok_bind, List.foldlM_cons,
      List.foldlM_nil]
    rw [hb]
    rfl
  have hok : ∀ v : Int, locatePoint p t.data tol = .ok v → t.locatePoints env [p] (some tol) [0] = .ok [v] := by
    intro v hv
    refine (locatePoints_ok_iff (points := [p]) (sched := [0]) (List.Perm.refl _)).2 ?_
    refine ⟨rfl, ?_⟩
    intro k q w hq hw
    cases k with
    | zero => simp at hq hw; subst hq hw; exact hv
    | succ k => simp at hq
  obtain ⟨hcol, _, bt, hc⟩ := ht.constructed' hm
  rcases locatePoint_cases ht hm p tol with ⟨j, r, h1, h2, h3⟩ | ⟨h1, h2⟩ | ⟨j, r, e, h1, h2, h3⟩
  · refine ⟨?_, fun _ => ⟨_, hok _ h1⟩⟩
    intro e he
    rw [hok _ h1] at he
    cases he
  · refine ⟨?_, fun _ => ⟨_, hok _ h1⟩⟩
    intro e he
    rw [hok _ h1] at he
    cases he
  · obtain ⟨_, g2, g3⟩ := hc.elements.polygon hcol h2
    have hne : storedPts vertices fill faces.ncol r ≠ [] := by intro h; rw [h] at g3; simp at g3
    refine ⟨?_, ?_⟩
    · intro e' he
      rw [hone e h1] at he
      cases he
      exact pointTest_error hne h3
    · intro hsub
      have hr := List.mem_of_getElem? h2
      obtain ⟨b, hb⟩ := pointTest_ok (p := p) (tol := tol) hne (hsub r hr) (by
        intro v hv
        have hv' : v ∈ facePts vertices fill r := by
          rcases g2 with g2 | g2 <;> rw [g2] at hv
          · exact hv
          · exact List.mem_reverse.1 hv
        exact ⟨List.mem_map_of_mem hv', (hm.num r hr v hv').2⟩)
      rw [hb] at h3
      cases h3

end

section
variable {K : Type} [Field K] [LinearOrder K] [IsStrictOrderedRing K]
variable {env : Env K} {vertices : List (Pt K)} {faces : IntArr} {fill nBuckets cellsPerLeaf : Int} {t : CellTree K}
variable {points : List (Pt K)} {tol : K} {sched : List Nat}

/-- **C06, C07** (exact arithmetic): the call always returns, with one entry for every point: a face that accepts the
point, or `-1`; in the latter case no face whose closed bounding box contains the point accepts it. -/
theorem C06_C07_locate_points (hm : GoodMesh env vertices faces fill)
    (ht : Makes env vertices faces fill nBuckets cellsPerLeaf t) (hs : sched.Perm (List.range points.length)) :
    ∃ res, t.locatePoints env points (some tol) sched = .ok res ∧ res.length = points.length ∧
      ∀ (i : Nat) p v, points[i]? = some p → res[i]? = some v →
        (∃ (j : Nat) (r : List Int), v = j ∧ faces.rows[j]? = some r ∧ Accepts tol (facePts vertices fill r) p) ∨
        (v = -1 ∧ ∀ r ∈ faces.rows, InBoxOf (facePts vertices fill r) p → ¬ Accepts tol (facePts vertices fill r) p) := by
  have hex : ∀ p : Pt K, ∃ v, locatePoint p t.data tol = .ok v ∧
      ((∃ (j : Nat) (r : List Int), v = j ∧ faces.rows[j]? = some r ∧ Accepts tol (facePts vertices fill r) p) ∨
        (v = -1 ∧ ∀ r ∈ faces.rows, InBoxOf (facePts vertices fill r) p → ¬ Accepts tol (facePts vertices fill r) p)) := by
    intro p
    rcases locatePoint_exact ht hm p tol with ⟨j, r, h1, h2, h3⟩ | ⟨h1, h2⟩
    · exact ⟨_, h1, Or.inl ⟨j, r, rfl, h2, h3⟩⟩
    · refine ⟨_, h1, Or.inr ⟨rfl, ?_⟩⟩
      intro r hr
      obtain ⟨j, hj⟩ := List.getElem?_of_mem hr
      exact h2 j r hj
  choose f hf1 hf2 using hex
  refine ⟨points.map f, ?_, by simp, ?_⟩
  · rw [locatePoints_ok_iff hs]
    refine ⟨by simp, ?_⟩
    intro i p v hp hv
    rw [List.getElem?_map, hp] at hv
    cases hv
    exact hf1 p
  · intro i p v hp hv
    rw [List.getElem?_map, hp] at hv
    cases hv
    exact hf2 p

/-- **C07** (exact arithmetic, tolerance zero): `-1` is returned exactly if no face accepts the point, convex or not. -/
theorem C07_exact_without_tolerance (hm : GoodMesh env vertices faces fill)
    (ht : Makes env vertices faces fill nBuckets cellsPerLeaf t) (hs : sched.Perm (List.range points.length)) :
    ∃ res, t.locatePoints env points (some 0) sched = .ok res ∧ res.length = points.length ∧
      ∀ (i : Nat) p v, points[i]? = some p → res[i]? = some v →
        (v = -1 ↔ ∀ r ∈ faces.rows,
          ¬ Odd ((sides (facePts vertices fill r)).countP fun s => decide (Crosses p s))) := by
  obtain ⟨res, h1, h2, h3⟩ := C06_C07_locate_points (tol := (0 : K)) hm ht hs
  refine ⟨res, h1, h2, ?_⟩
  intro i p v hp hv
  rcases h3 i p v hp hv with ⟨j, r, h4, h5, h6⟩ | ⟨h4, h5⟩
  · constructor
    · intro h; omega
    · intro h
      rcases h6 with ⟨s, _, hs⟩ | h6
      · exact (not_near_zero p s hs).elim
      · exact (h r (List.mem_of_getElem? h5) h6).elim
  · refine ⟨fun _ => ?_, fun _ => h4⟩
    intro r hr hodd
    exact h5 r hr (odd_in_box hodd) (Or.inr hodd)

/-- **C08** (exact arithmetic): if exactly one face accepts the point, and its closed bounding box contains the point,
then every tree returns that face. -/
theorem C08_unique_face (hm : GoodMesh env vertices faces fill)
    (ht : Makes env vertices faces fill nBuckets cellsPerLeaf t) (hs : sched.Perm (List.range points.length))
    {i k : Nat} {p : Pt K} {rk : List Int} (hp : points[i]? = some p) (hk : faces.rows[k]? = some rk)
    (hb : InBoxOf (facePts vertices fill rk) p) (hin : Accepts tol (facePts vertices fill rk) p)
    (hout : ∀ (j : Nat) (r : List Int), j ≠ k → faces.rows[j]? = some r → ¬ Accepts tol (facePts vertices fill r) p) :
    ∃ res, t.locatePoints env points (some tol) sched = .ok res ∧ res[i]? = some (k : Int) := by
  obtain ⟨res, h1, h2, h3⟩ := C06_C07_locate_points (tol := tol) hm ht hs
  refine ⟨res, h1, ?_⟩
  have hi : i < res.length := by rw [h2]; exact (List.getElem?_eq_some_iff.1 hp).1
  rw [List.getElem?_eq_getElem hi]
  rcases h3 i p res[i] hp (by simp) with ⟨j, r, h4, h5, h6⟩ | ⟨h4, h5⟩
  · by_cases hjk : j = k
    · rw [h4, hjk]
    · exact (hout j r hjk h5 h6).elim
  · exact (h5 rk (List.mem_of_getElem? hk) hb hin).elim

/-- A point that divides the segment from `a` to `b` in the ratio `t : 1 - t`. -/
def onSegment (a b p : Pt K) : Prop := ∃ t : K, 0 ≤ t ∧ t ≤ 1 ∧ p.x = a.x + t * (b.x - a.x) ∧ p.y = a.y + t * (b.y - a.y)

theorem onSegment.between {a b p : Pt K} (h : onSegment a b p) :
    (min a.x b.x ≤ p.x ∧ p.x ≤ max a.x b.x) ∧ (min a.y b.y ≤ p.y ∧ p.y ≤ max a.y b.y) := by
  obtain ⟨t, h0, h1, hx, hy⟩ := h
  have key : ∀ a b : K, min a b ≤ a + t * (b - a) ∧ a + t * (b - a) ≤ max a b := by
    intro a b
    rcases le_total a b with hab | hab
    · rw [min_eq_left hab, max_eq_right hab]
      have := mul_nonneg h0 (sub_nonneg.2 hab)
      have := mul_nonneg (sub_nonneg.2 h1) (sub_nonneg.2 hab)
      constructor <;> linarith
    · rw [min_eq_right hab, max_eq_left hab]
      have := mul_nonneg h0 (sub_nonneg.2 hab)
      have := mul_nonneg (sub_nonneg.2 h1) (sub_nonneg.2 hab)
      constructor <;> linarith
  rw [hx, hy]
  exact ⟨key _ _, key _ _⟩

theorem onSegment.near {a b p : Pt K} (h : onSegment a b p) (hab : a ≠ b) (htol : 0 < tol) : Near tol p (a, b) := by
  refine ⟨hab, ?_, fun _ => h.between.1, fun _ => h.between.2⟩
  obtain ⟨t, h0, h1, hx, hy⟩ := h
  have : orient a b p = 0 := by
    unfold orient
    rw [hx, hy]; ring
  simp only [this]
  have hd : 0 < dist2 a b := by
    unfold dist2
    by_contra hh
    have h1 : (b.x - a.x) ^ 2 = 0 := le_antisymm (by nlinarith [sq_nonneg (b.x - a.x), sq_nonneg (b.y - a.y)]) (sq_nonneg _)
    have h2 : (b.y - a.y) ^ 2 = 0 := le_antisymm (by nlinarith [sq_nonneg (b.x - a.x), sq_nonneg (b.y - a.y)]) (sq_nonneg _)
    have h3 := pow_eq_zero_iff (two_ne_zero) |>.1 h1
    have h4 := pow_eq_zero_iff (two_ne_zero) |>.1 h2
    apply hab
    cases a; cases b
    simp only [Pt.mk.injEq] at *
    exact ⟨(sub_eq_zero.1 h3).symm, (sub_eq_zero.1 h4).symm⟩
  have := mul_pos (pow_pos htol 2) hd
  rw [zero_pow two_ne_zero]
  exact this

theorem onSegment.inBox {a b p : Pt K} (h : onSegment a b p) {pts : List (Pt K)} (ha : a ∈ pts) (hb : b ∈ pts) :
    InBoxOf pts p := by
  obtain ⟨⟨h1, h2⟩, ⟨h3, h4⟩⟩ := h.between
  refine ⟨?_, ?_, ?_, ?_⟩
  · rcases min_le_iff.1 h1 with h | h
    · exact ⟨a, ha, h⟩
    · exact ⟨b, hb, h⟩
  · rcases le_max_iff.1 h2 with h | h
    · exact ⟨a, ha, h⟩
    · exact ⟨b, hb, h⟩
  · rcases min_le_iff.1 h3 with h | h
    · exact ⟨a, ha, h⟩
    · exact ⟨b, hb, h⟩
  · rcases le_max_iff.1 h4 with h | h
    · exact ⟨a, ha, h⟩
    · exact ⟨b, hb, h⟩

/-- **C26** (exact arithmetic): a point on a side (of positive length) of a face is located, with any positive
tolerance. -/
theorem C26_boundary_points_found (hm : GoodMesh env vertices faces fill)
    (ht : Makes env vertices faces fill nBuckets cellsPerLeaf t) (hs : sched.Perm (List.range points.length))
    (htol : 0 < tol) {i : Nat} {p : Pt K} (hp : points[i]? = some p) {r : List Int} (hr : r ∈ faces.rows) {a b : Pt K}
    (hside : (a, b) ∈ sides (facePts vertices fill r)) (hab : a ≠ b) (hon : onSegment a b p) :
    ∃ res v, t.locatePoints env points (some tol) sched = .ok res ∧ res[i]? = some v ∧ v ≠ -1 := by
  obtain ⟨res, h1, h2, h3⟩ := C06_C07_locate_points (tol := tol) hm ht hs
  have hi : i < res.length := by rw [h2]; exact (List.getElem?_eq_some_iff.1 hp).1
  refine ⟨res, res[i], h1, by simp, ?_⟩
  rcases h3 i p res[i] hp (by simp) with ⟨j, r, h4, h5, h6⟩ | ⟨h4, h5⟩
  · omega
  · obtain ⟨m1, m2⟩ := mem_sides_mem hside
    exact (h5 r hr (hon.inBox m1 m2) (Or.inl ⟨_, hside, hon.near hab htol⟩)).elim

/-- **C27** (exact arithmetic): a larger tolerance accepts at least as much. -/
theorem C27_tolerance_monotone {poly : List (Pt K)} (hne : poly ≠ []) (p : Pt K) {tol' : K} (h0 : 0 ≤ tol)
    (hle : tol ≤ tol') (h : pointInPolygonOrOnEdge p poly tol = .ok true) :
    pointInPolygonOrOnEdge p poly tol' = .ok true := by
  obtain ⟨b, h1, h2⟩ := pointInPolygonOrOnEdge_eq p hne tol
  obtain ⟨b', h3, h4⟩ := pointInPolygonOrOnEdge_eq p hne tol'
  rw [h] at h1
  cases h1
  rw [h3]
  congr 1
  apply h4.2
  rcases h2.1 rfl with ⟨s, hs, hn⟩ | h
  · exact Or.inl ⟨s, hs, near_mono h0 hle hn⟩
  · exact Or.inr h

/-- **C27** (exact arithmetic): a point that is located is also located with a larger tolerance. -/
theorem C27_located_monotone (hm : GoodMesh env vertices faces fill)
    (ht : Makes env vertices faces fill nBuckets cellsPerLeaf t) {p : Pt K} {tol' : K} (h0 : 0 ≤ tol)
    (hle : tol ≤ tol') {v v' : Int} (h : t.locatePoints env [p] (some tol) [0] = .ok [v]) (hv : v ≠ -1)
    (h' : t.locatePoints env [p] (some tol') [0] = .ok [v']) : v' ≠ -1 := by
  replace h := ((locatePoints_ok_iff (List.Perm.refl _)).1 h).2 0 p v rfl rfl
  replace h' := ((locatePoints_ok_iff (List.Perm.refl _)).1 h').2 0 p v' rfl rfl
  obtain ⟨hcol, _, bt, hc⟩ := ht.constructed' hm
  unfold locatePoint at h h'
  rw [locateWith_eq hc.tree] at h h'
  obtain ⟨o, g1, g2⟩ := bind_eq_ok.1 h
  obtain ⟨o', g1', g2'⟩ := bind_eq_ok.1 h'
  cases o with
  | none => exact (hv (Except.ok.inj g2).symm).elim
  | some j =>
    obtain ⟨hj, hj'⟩ := findCell_some g1
    have hlt := pointCells_lt hc.tree p j hj
    rw [hc.boxes.length] at hlt
    have hrow : faces.rows[j]? = some faces.rows[j] := by simp
    cases o' with
    | none =>
      have hf := findCell_none g1' j hj
      rw [faceTest_eq hc hcol hrow] at hf hj'
      have g3 := (hc.elements.polygon hcol hrow).2.2
      have hne : storedPts vertices fill faces.ncol faces.rows[j] ≠ [] := by intro h; rw [h] at g3; simp at g3
      rw [C27_tolerance_monotone hne p h0 hle hj'] at hf
      cases hf
    | some j' =>
      have := (Except.ok.inj g2').symm
      omega

end

/-- **C28** is violated: three faces, and a point outside them at distance `0.05` of one, with tolerance `0.1`. With three
faces per leaf the point is found, with one face per leaf it is not. -/
theorem C28_near_edge_depends_on_tree :
    ∃ (vertices : List (Pt ℚ)) (faces : IntArr) (p : Pt ℚ) (tol : ℚ) (t t' : CellTree ℚ),
      GoodMesh Ex.qEnv vertices faces (-1) ∧ Makes Ex.qEnv vertices faces (-1) 4 3 t ∧
      Makes Ex.qEnv vertices faces (-1) 4 1 t' ∧
      t.locatePoints Ex.qEnv [p] (some tol) [0] = .ok [0] ∧ t'.locatePoints Ex.qEnv [p] (some tol) [0] = .ok [-1] := by
  let verts : List (Pt ℚ) := [⟨0, 0⟩, ⟨1, 0⟩, ⟨1, 1⟩, ⟨0, 1⟩, ⟨3, 3⟩, ⟨4, 3⟩, ⟨4, 4⟩, ⟨3, 4⟩,
    ⟨6, 0⟩, ⟨7, 0⟩, ⟨7, 1⟩]
  let faces : IntArr := ⟨4, [[0, 1, 2, 3], [4, 5, 6, 7], [8, 9, 10, -1]]⟩
  obtain ⟨t, h1, h2⟩ := bind_eq_ok.1 (show (CellTree.init Ex.qEnv verts faces (-1) 4 3 [0, 1, 2] >>= fun t =>
    t.locatePoints Ex.qEnv [⟨21 / 20, 1 / 2⟩] (some (1 / 10)) [0]) = .ok [0] by decide +kernel)
  obtain ⟨t', h1', h2'⟩ := bind_eq_ok.1 (show (CellTree.init Ex.qEnv verts faces (-1) 4 1 [0, 1, 2] >>= fun t =>
    t.locatePoints Ex.qEnv [⟨21 / 20, 1 / 2⟩] (some (1 / 10)) [0]) = .ok [-1] by decide +kernel)
  refine ⟨verts, faces, ⟨21 / 20, 1 / 2⟩, 1 / 10, t, t', ?_, ⟨[0, 1, 2], by decide, h1⟩,
    ⟨[0, 1, 2], by decide, h1'⟩, h2, h2'⟩
  refine ⟨⟨by decide, ?_⟩, fun _ _ _ _ => ⟨trivial, trivial⟩, trivial, trivial⟩
  intro r hr
  simp only [faces, List.mem_cons, List.not_mem_nil, or_false] at hr
  rcases hr with rfl | rfl | rfl <;> exact ⟨by decide, by decide, by decide⟩

/-- What remains of **C28**: away from the sides (no face is near the point) the tree has no influence as far as hit or
miss is concerned. Missing: points within the tolerance of a side but outside the bounding box of its face. -/
theorem C28_partial {K : Type} [Field K] [LinearOrder K] [IsStrictOrderedRing K] {env : Env K} {vertices : List (Pt K)}
    {faces : IntArr} {fill nBuckets cellsPerLeaf nBuckets' cellsPerLeaf' : Int} {t t' : CellTree K}
    (hm : GoodMesh env vertices faces fill) (ht : Makes env vertices faces fill nBuckets cellsPerLeaf t)
    (ht' : Makes env vertices faces fill nBuckets' cellsPerLeaf' t') {p : Pt K} {tol : K}
    (hbox : ∀ r ∈ faces.rows, Accepts tol (facePts vertices fill r) p → InBoxOf (facePts vertices fill r) p) :
    ∃ v v', t.locatePoints env [p] (some tol) [0] = .ok [v] ∧ t'.locatePoints env [p] (some tol) [0] = .ok [v'] ∧
      (v = -1 ↔ v' = -1) := by
  have key : ∀ {nBuckets cellsPerLeaf : Int} {t : CellTree K}, Makes env vertices faces fill nBuckets cellsPerLeaf t →
      ∃ v, t.locatePoints env [p] (some tol) [0] = .ok [v] ∧
        (v = -1 ↔ ∀ r ∈ faces.rows, ¬ Accepts tol (facePts vertices fill r) p) := by
    intro nb cpl t ht
    obtain ⟨res, h1, h2, h3⟩ := C06_C07_locate_points (points := [p]) (tol := tol) (sched := [0]) hm ht (List.Perm.refl _)
    match res, h2 with
    | [v], _ =>
      refine ⟨v, h1, ?_⟩
      rcases h3 0 p v rfl rfl with ⟨j, r, h4, h5, h6⟩ | ⟨h4, h5⟩
      · constructor
        · intro h; omega
        · intro h; exact (h r (List.mem_of_getElem? h5) h6).elim
      · refine ⟨fun _ r hr ha => h5 r hr (hbox r hr ha) ha, fun _ => h4⟩
  obtain ⟨v, h1, h2⟩ := key ht
  obtain ⟨v', h1', h2'⟩ := key ht'
  exact ⟨v, v', h1, h1', h2.trans h2'.symm⟩

/-- The hypotheses can be met, in exact arithmetic. -/
theorem example_good_exact : GoodMesh Ex.qEnv Ex.qVerts Ex.faces (-999) where
  valid := Ex.faces_valid
  num := fun _ _ _ _ => ⟨trivial, trivial⟩
  max := trivial
  min := trivial

/-- A point inside a face, one outside, one on a side, one in a corner, one just outside but within the tolerance. -/
example : ∃ t, Makes Ex.qEnv Ex.qVerts Ex.faces (-999) 4 1 t ∧
    t.locatePoints Ex.qEnv [⟨1, 1⟩, ⟨3, 3⟩, ⟨0, 1⟩, ⟨1, 4⟩, ⟨-1 / 100, 1⟩, ⟨3, 1 / 2⟩] (some (1 / 10)) [5, 1, 2, 3, 0, 4] =
      .ok [0, -1, 0, 3, 0, 1] := by
  obtain ⟨t, h1, h2⟩ := bind_eq_ok.1 (show (CellTree.init Ex.qEnv Ex.qVerts Ex.faces (-999) 4 1 [2, 0, 3, 1] >>= fun t =>
    t.locatePoints Ex.qEnv [⟨1, 1⟩, ⟨3, 3⟩, ⟨0, 1⟩, ⟨1, 4⟩, ⟨-1 / 100, 1⟩, ⟨3, 1 / 2⟩] (some (1 / 10)) [5, 1, 2, 3, 0, 4]) =
      .ok [0, -1, 0, 3, 0, 1] by decide +kernel)
  exact ⟨t, ⟨[2, 0, 3, 1], by decide, h1⟩, h2⟩

/-- The same in floating point. -/
example : ∃ t, Makes Fl.env Ex.flVerts Ex.faces (-999) 4 1 t ∧
    t.locatePoints Fl.env [⟨.fin 1, .fin 1⟩, ⟨.fin 3, .fin 3⟩, ⟨.nan, .fin 1⟩] (some (.fin (1 / 8))) [1, 2, 0] =
      .ok [0, -1, -1] := by
  obtain ⟨t, h1, h2⟩ := bind_eq_ok.1 (show (Ex.flTree >>= fun t =>
    t.locatePoints Fl.env [⟨.fin 1, .fin 1⟩, ⟨.fin 3, .fin 3⟩, ⟨.nan, .fin 1⟩] (some (.fin (1 / 8))) [1, 2, 0]) =
      .ok [0, -1, -1] by decide +kernel)
  exact ⟨t, ⟨[2, 0, 3, 1], by decide, h1⟩, h2⟩

end Celltree
