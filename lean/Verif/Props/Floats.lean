import Verif.Proofs.FloatConvex
import Verif.Props.Weights
import Verif.Props.Convex

/-!
# Point location in binary64: C66 – C68
-/

set_option linter.unusedSectionVars false

namespace Celltree

section
variable {F : Type} [Add F] [Sub F] [Mul F] [Div F] [Neg F] [Zero F] [One F] [IntCast F]
  [LT F] [LE F] [BEq F] [DecidableLT F] [DecidableLE F] [NumOrd F]
variable {env : Env F} {vertices : List (Pt F)} {faces : IntArr} {fill nBuckets cellsPerLeaf : Int} {t : CellTree F}

/-- There always is a tolerance. -/
theorem Makes.tolerance_ok (hm : GoodMesh env vertices faces fill)
    (ht : Makes env vertices faces fill nBuckets cellsPerLeaf t) (otol : Option F) :
    ∃ tol, t.tolerance env otol = .ok tol := by
  cases otol with
  | some tol => exact ⟨tol, rfl⟩
  | none =>
    obtain ⟨_, hne, bt, hc⟩ := ht.constructed' hm
    have hne' : t.data.bbCoords ≠ [] := by
      intro h
      have := hc.boxes.length
      rw [h] at this
      exact hne (List.length_eq_zero_iff.1 this.symm)
    obtain ⟨b, l, hbl⟩ := List.exists_cons_of_ne_nil hne'
    unfold CellTree.tolerance defaultTolerance
    simp only
    rw [hc.distances, List.map_map, hbl, List.map_cons]
    exact ⟨_, rfl⟩

theorem locatePoints_tol {otol : Option F} {tol : F} (h : t.tolerance env otol = .ok tol) (points : List (Pt F))
    (sched : List Nat) : t.locatePoints env points otol sched = t.locatePoints env points (some tol) sched := by
  unfold CellTree.locatePoints
  rw [h]; rfl

end

open Fl

variable {env : Env Fl} {vertices : List (Pt Fl)} {faces : IntArr} {fill nBuckets cellsPerLeaf : Int} {t : CellTree Fl}
variable {points : List (Pt Fl)} {otol : Option Fl} {sched : List Nat} {res : List Int}

/-- **C66**: in binary64 the location of points never raises an exception: for every well-formed mesh whose coordinates are
binary64 numbers, infinite ones included, for all points, NaN included, all tolerances, and all orders of the parallel
loop. There is one entry for every point. -/
theorem C66_never_raises (hm : GoodMesh env vertices faces fill)
    (ht : Makes env vertices faces fill nBuckets cellsPerLeaf t) (hrep : ∀ v ∈ vertices, Rep v.x ∧ Rep v.y)
    (hs : sched.Perm (List.range points.length)) (otol : Option Fl) :
    ∃ res, t.locatePoints env points otol sched = .ok res ∧ res.length = points.length := by
  obtain ⟨tol, htol⟩ := ht.tolerance_ok hm otol
  rw [locatePoints_tol htol]
  have hex : ∀ p : Pt Fl, ∃ v, t.locatePoints env [p] (some tol) [0] = .ok [v] := by
    intro p
    refine (C06_no_crash hm ht p tol).2 ?_
    intro r _
    apply subNonzero
    intro y hy
    obtain ⟨v, hv, rfl⟩ := List.mem_map.1 hy
    unfold facePts at hv
    obtain ⟨k, _, hk⟩ := List.mem_filterMap.1 hv
    exact (hrep v (List.mem_of_getElem? hk)).2
  choose f hf using hex
  refine ⟨points.map f, (C09_points_independent hs).2 ⟨by simp, ?_⟩, by simp⟩
  intro i p v hp hv
  rw [List.getElem?_map, hp] at hv
  cases hv
  exact hf p

/-- The corners of the face are `l`, counter-clockwise, or the same in reverse. -/
def FaceIs (vertices : List (Pt Fl)) (fill : Int) (r : List Int) (l : List (Pt ℚ)) : Prop :=
  facePts vertices fill r = l.map fp ∨ facePts vertices fill r = l.reverse.map fp

theorem FaceIs.poly {r : List Int} {l : List (Pt ℚ)} (h : FaceIs vertices fill r l) {poly : List (Pt Fl)}
    (hp : poly = facePts vertices fill r ∨ poly = (facePts vertices fill r).reverse) :
    ∃ l', (l' = l ∨ l' = l.reverse) ∧ poly = l'.map fp := by
  rcases h with h | h <;> rcases hp with hp | hp <;> rw [hp, h]
  · exact ⟨l, .inl rfl, rfl⟩
  · exact ⟨l.reverse, .inr rfl, List.map_reverse.symm⟩
  · exact ⟨l.reverse, .inr rfl, rfl⟩
  · exact ⟨l, .inl rfl, by rw [← List.map_reverse, List.reverse_reverse]⟩

theorem _root_.Celltree.ConvexPoly.inBoxOf {l : List (Pt ℚ)} (hl : ConvexPoly l) {p : Pt ℚ} (hin : InPoly l p) :
    InBoxOf l p := by
  obtain ⟨a, a1, a2⟩ := hl.exists_le hin (d := ⟨1, 0⟩) (Or.inl one_ne_zero)
  obtain ⟨b, b1, b2⟩ := hl.exists_ge hin (d := ⟨1, 0⟩) (Or.inl one_ne_zero)
  obtain ⟨c, c1, c2⟩ := hl.exists_le hin (d := ⟨0, 1⟩) (Or.inr one_ne_zero)
  obtain ⟨d, d1, d2⟩ := hl.exists_ge hin (d := ⟨0, 1⟩) (Or.inr one_ne_zero)
  simp only [along, one_mul, zero_mul, add_zero, zero_add] at a2 b2 c2 d2
  exact ⟨⟨a, a1, a2⟩, ⟨b, b1, b2⟩, ⟨c, c1, c2⟩, ⟨d, d1, d2⟩⟩

theorem bnd_of_inBoxOf {l : List (Pt ℚ)} {M : ℚ} (hb : ∀ v ∈ l, Bnd M v) {p : Pt ℚ} (h : InBoxOf l p) : Bnd M p := by
  obtain ⟨⟨a, a1, a2⟩, ⟨b, b1, b2⟩, ⟨c, c1, c2⟩, ⟨d, d1, d2⟩⟩ := h
  have ha := (abs_le.1 (hb a a1).1).1
  have hb' := (abs_le.1 (hb b b1).1).2
  have hc := (abs_le.1 (hb c c1).2).1
  have hd := (abs_le.1 (hb d d1).2).2
  refine ⟨abs_le.2 ⟨?_, ?_⟩, abs_le.2 ⟨?_, ?_⟩⟩ <;> linarith

variable {M D tol : ℚ}

/-- The test accepts, in binary64, every point of a convex polygon. -/
theorem C67_polygon_accepts {l poly : List (Pt ℚ)} (hl : ConvexPoly l) (hg : GoodPoly M D l)
    (hc : ∀ s ∈ sides l, s.1 ≠ s.2 → Clear s.1 s.2) (hM : 1 / 2 ^ 100 ≤ M) (hM' : M ≤ 2 ^ 200) (ht : slack M D ≤ tol)
    (ht' : tol ≤ 2 ^ 200) (hpoly : poly = l ∨ poly = l.reverse) {p : Pt ℚ} (hp : InPoly l p) :
    pointInPolygonOrOnEdge (fp p) (poly.map fp) (fin tol) = .ok true := by
  have hgp : GoodPoly M D poly := by
    rcases hpoly with rfl | rfl
    · exact hg
    · exact hg.reverse
  have hne : poly ≠ [] := by
    rcases hpoly with rfl | rfl
    · exact hl.ne_nil
    · simpa using hl.ne_nil
  have ht0 : 0 ≤ tol := by
    obtain ⟨v, hv, hne⟩ := hl.side_from (List.getLast_mem hl.ne_nil)
    have hsl := slack_small hM (hg.side _ hv (Ne.symm hne)).D_nonneg
    exact le_trans (le_trans (by positivity) hsl) ht
  obtain ⟨b, h1, h2⟩ := test_fl (tol := tol) hgp hne ((bnd_of_inBoxOf hg.bnd (hl.inBoxOf hp)).mono hM') hM'
    (by rwa [abs_of_nonneg ht0])
  rw [h1, h2.2 (convex_accept hl hg hc hM ht hpoly hp)]

/-- … and every point that it accepts is within twice the tolerance of a point of the polygon, in both coordinates. -/
theorem C68_polygon_close {l poly : List (Pt ℚ)} (hl : ConvexPoly l) (hg : GoodPoly M D l) (hM : 1 / 2 ^ 100 ≤ M)
    (hM' : M ≤ 2 ^ 200) (ht : slack M D ≤ tol) (ht' : tol ≤ 2 ^ 200) (hpoly : poly = l ∨ poly = l.reverse) {p : Pt ℚ}
    (hp : Bnd (2 ^ 200) p) (ha : pointInPolygonOrOnEdge (fp p) (poly.map fp) (fin tol) = .ok true) :
    ∃ q, InPoly l q ∧ |p.x - q.x| ≤ 2 * tol ∧ |p.y - q.y| ≤ 2 * tol := by
  have hgp : GoodPoly M D poly := by
    rcases hpoly with rfl | rfl
    · exact hg
    · exact hg.reverse
  have hne : poly ≠ [] := by
    rcases hpoly with rfl | rfl
    · exact hl.ne_nil
    · simpa using hl.ne_nil
  have ht0 : 0 ≤ tol := by
    obtain ⟨v, hv, hne⟩ := hl.side_from (List.getLast_mem hl.ne_nil)
    have hsl := slack_small hM (hg.side _ hv (Ne.symm hne)).D_nonneg
    exact le_trans (le_trans (by positivity) hsl) ht
  obtain ⟨b, h1, h2⟩ := test_fl (tol := tol) hgp hne hp hM' (by rwa [abs_of_nonneg ht0])
  rw [h1] at ha
  exact convex_sound hl hg hM ht hpoly (h2.1 (Except.ok.inj ha))

/-- **C67**, partial: what is missing is that the tolerance must not be smaller than the rounding errors, and that sides must
not be at 45 degrees up to rounding. Then, in binary64, every point of a convex face is located, in some face. The other
faces of the mesh can be anything. -/
theorem C67_points_found_partial (hm : GoodMesh env vertices faces fill)
    (ht : Makes env vertices faces fill nBuckets cellsPerLeaf t) (hrep : ∀ v ∈ vertices, Rep v.x ∧ Rep v.y)
    (hs : sched.Perm (List.range points.length)) (htol : t.tolerance env otol = .ok (fin tol)) {r : List Int}
    (hr : r ∈ faces.rows) {l : List (Pt ℚ)} (hf : FaceIs vertices fill r l) (hl : ConvexPoly l) (hg : GoodPoly M D l)
    (hc : ∀ s ∈ sides l, s.1 ≠ s.2 → Clear s.1 s.2) (hM : 1 / 2 ^ 100 ≤ M) (hM' : M ≤ 2 ^ 200) (h1 : slack M D ≤ tol)
    (h2 : tol ≤ 2 ^ 200) {i : Nat} {p : Pt ℚ} (hp : points[i]? = some (fp p)) (hin : InPoly l p) :
    ∃ res v, t.locatePoints env points otol sched = .ok res ∧ res[i]? = some v ∧ v ≠ -1 := by
  obtain ⟨res, hres, hlen⟩ := C66_never_raises hm ht hrep hs otol
  have hi : i < res.length := by rw [hlen]; exact (List.getElem?_eq_some_iff.1 hp).1
  refine ⟨res, res[i], hres, by simp, ?_⟩
  intro hv
  obtain ⟨j, hj⟩ := List.mem_iff_getElem?.1 hr
  rw [locatePoints_tol htol] at hres
  have hbox : InBoxOf (facePts vertices fill r) (fp p) := by
    have hb := hl.inBoxOf hin
    have hmem : ∀ v ∈ l, fp v ∈ facePts vertices fill r := by
      intro v hv
      rcases hf with h | h <;> rw [h]
      · exact List.mem_map_of_mem hv
      · exact List.mem_map_of_mem (List.mem_reverse.2 hv)
    obtain ⟨⟨a, a1, a2⟩, ⟨b, b1, b2⟩, ⟨c, c1, c2⟩, ⟨d, d1, d2⟩⟩ := hb
    exact ⟨⟨_, hmem a a1, (le_fin _ _).2 a2⟩, ⟨_, hmem b b1, (le_fin _ _).2 b2⟩, ⟨_, hmem c c1, (le_fin _ _).2 c2⟩,
      ⟨_, hmem d d1, (le_fin _ _).2 d2⟩⟩
  obtain ⟨poly, hpoly, hrej⟩ := C07_missed_point_fails_tests hm ht hs hres hp
    (by rw [List.getElem?_eq_getElem hi, hv]) hj hbox
  obtain ⟨l', hl', rfl⟩ := hf.poly hpoly
  rw [C67_polygon_accepts hl hg hc hM hM' h1 h2 hl' hin] at hrej
  cases hrej

/-- **C68**: in binary64 a point is located only in a face that contains a point within twice the tolerance of it, in both
coordinates, if the faces are convex and the tolerance is not smaller than the rounding errors. -/
theorem C68_located_close (hm : GoodMesh env vertices faces fill)
    (ht : Makes env vertices faces fill nBuckets cellsPerLeaf t) (hs : sched.Perm (List.range points.length))
    (htol : t.tolerance env otol = .ok (fin tol))
    (hfaces : ∀ r ∈ faces.rows, ∃ l D, FaceIs vertices fill r l ∧ ConvexPoly l ∧ GoodPoly M D l ∧ slack M D ≤ tol)
    (hM : 1 / 2 ^ 100 ≤ M) (hM' : M ≤ 2 ^ 200) (h2 : tol ≤ 2 ^ 200)
    (hr : t.locatePoints env points otol sched = .ok res) {i : Nat} {p : Pt ℚ} {v : Int} (hp : points[i]? = some (fp p))
    (hb : Bnd (2 ^ 200) p) (hv : res[i]? = some v) (h0 : v ≠ -1) :
    ∃ (j : Nat) (r : List Int) (l : List (Pt ℚ)), v = j ∧ faces.rows[j]? = some r ∧ FaceIs vertices fill r l ∧
      ∃ q, InPoly l q ∧ |p.x - q.x| ≤ 2 * tol ∧ |p.y - q.y| ≤ 2 * tol := by
  rw [locatePoints_tol htol] at hr
  obtain ⟨j, r, hj, hrow, poly, hpoly, hacc⟩ := C06_located_point_passes_test hm ht hs hr hp hv h0
  obtain ⟨l, D, hf, hl, hg, h1⟩ := hfaces r (List.mem_of_getElem? hrow)
  obtain ⟨l', hl', rfl⟩ := hf.poly hpoly
  exact ⟨j, r, l, hj, hrow, hf, C68_polygon_close hl hg hM hM' h1 h2 hl' hb hacc⟩

/-! ## Examples and a violation -/

theorem rep_rnd (q : ℚ) : Rep (rnd q) := by
  have e := rnd_eq q
  generalize rnd q = x at e ⊢
  by_cases h : |rq q| ≤ maxNat
  · rw [if_pos h] at e; subst e; exact ⟨rq_isRep q, h⟩
  · rw [if_neg h] at e
    by_cases h' : 0 < q
    · rw [if_pos h'] at e; subst e; trivial
    · rw [if_neg h'] at e; subst e; trivial

instance (B : ℚ) (p : Pt ℚ) : Decidable (Bnd B p) := by unfold Bnd; infer_instance
instance (a b : Pt ℚ) : Decidable (Clear a b) := by unfold Clear; infer_instance
instance (M D : ℚ) (a b : Pt ℚ) : Decidable (Fl.GoodSide M D a b) :=
  decidable_of_iff (Bnd M a ∧ Bnd M b ∧ |b.x - a.x| ≤ D ∧ |b.y - a.y| ≤ D ∧
      (slack M D ≤ |b.x - a.x| ∨ slack M D ≤ |b.y - a.y|) ∧ (b.y = a.y ∨ 1 / 2 ^ 200 ≤ |b.y - a.y|))
    ⟨fun ⟨h1, h2, h3, h4, h5, h6⟩ => ⟨h1, h2, h3, h4, h5, h6⟩,
      fun h => ⟨h.bnd_a, h.bnd_b, h.dx_le, h.dy_le, h.long, h.height⟩⟩
instance (M D : ℚ) (l : List (Pt ℚ)) : Decidable (GoodPoly M D l) :=
  decidable_of_iff ((∀ v ∈ l, Bnd M v) ∧ ∀ s ∈ sides l, s.1 ≠ s.2 → Fl.GoodSide M D s.1 s.2)
    ⟨fun ⟨h1, h2⟩ => ⟨h1, h2⟩, fun h => ⟨h.bnd, h.side⟩⟩
instance (vertices : List (Pt Fl)) (fill : Int) (r : List Int) (l : List (Pt ℚ)) : Decidable (FaceIs vertices fill r l) := by
  unfold FaceIs; infer_instance

namespace Ex

theorem rep_rndPt (x y : ℚ) : Rep (rndPt x y).x ∧ Rep (rndPt x y).y := ⟨rep_rnd x, rep_rnd y⟩

/-- Two cells of 10 m in the Dutch national grid, with a slanted side in common. -/
def gridVerts : List (Pt Fl) := [rndPt 155000 463000, rndPt 155005.02 463000.46, rndPt 155002.65 463009.94,
  rndPt 155000 463010, rndPt 155010 463000, rndPt 155010 463010]
def gridFaces : IntArr := ⟨4, [[0, 1, 2, 3], [1, 4, 5, 2]]⟩

/-- The exact values of the corners of the first cell. -/
def gridCell : List (Pt ℚ) := [⟨155000, 463000⟩, ⟨5325931932926607 / 2 ^ 35, 7954287334931825 / 2 ^ 34⟩,
  ⟨5325850500346675 / 2 ^ 35, 7954450200091689 / 2 ^ 34⟩, ⟨155000, 463010⟩]

/-- A point of the first cell. -/
def gridPt : Pt ℚ := ⟨5325867327702353 / 2 ^ 35, 1988604136345083 / 2 ^ 32⟩

/-- The same two cells near the origin. -/
def nearVerts : List (Pt Fl) := [rndPt 100 100, rndPt 106 101, rndPt 104 109, rndPt 100 110, rndPt 110 100, rndPt 110 110]
def nearCell : List (Pt ℚ) := [⟨100, 100⟩, ⟨106, 101⟩, ⟨104, 109⟩, ⟨100, 110⟩]
def nearCell' : List (Pt ℚ) := [⟨106, 101⟩, ⟨110, 100⟩, ⟨110, 110⟩, ⟨104, 109⟩]

theorem near_good : GoodMesh Fl.env nearVerts gridFaces (-1) :=
  ⟨⟨by decide, fun r hr => by
    simp only [gridFaces, List.mem_cons, List.not_mem_nil, or_false] at hr
    rcases hr with rfl | rfl <;> exact ⟨by decide, by decide, by decide⟩⟩, by
      intro r hr p hp
      simp only [gridFaces, List.mem_cons, List.not_mem_nil, or_false] at hr
      have : ∀ p ∈ nearVerts, p.x ≠ Fl.nan ∧ p.y ≠ Fl.nan := by decide +kernel
      unfold facePts at hp
      obtain ⟨k, _, hk⟩ := List.mem_filterMap.1 hp
      exact this p (List.mem_of_getElem? hk), nofun, nofun⟩

theorem near_rep : ∀ v ∈ nearVerts, Rep v.x ∧ Rep v.y := by
  intro v hv
  simp only [nearVerts, List.mem_cons, List.not_mem_nil, or_false] at hv
  rcases hv with rfl | rfl | rfl | rfl | rfl | rfl <;> exact rep_rndPt _ _

end Ex

set_option synthInstance.maxSize 1000

/-- **C67** is violated, with the default tolerance and realistic coordinates: a point of a convex cell, next to a side that
it has in common with another cell, is located in neither of them. -/
theorem C67_grid_violated : ∃ t : CellTree Fl, Makes Fl.env Ex.gridVerts Ex.gridFaces (-1) 4 2 t ∧
    FaceIs Ex.gridVerts (-1) [0, 1, 2, 3] Ex.gridCell ∧ ConvexPoly Ex.gridCell ∧ InPoly Ex.gridCell Ex.gridPt ∧
    t.locatePoints Fl.env [fp Ex.gridPt] none [0] = .ok [-1] := by
  obtain ⟨t, h1, h2⟩ := bind_eq_ok.1 (show (CellTree.init Fl.env Ex.gridVerts Ex.gridFaces (-1) 4 2 [0, 1] >>= fun t =>
    t.locatePoints Fl.env [fp Ex.gridPt] none [0]) = .ok [-1] by decide +kernel)
  exact ⟨t, ⟨_, by decide, h1⟩, by decide +kernel, by decide +kernel, by decide +kernel, h2⟩

/-- Near the origin the default tolerance is large enough, and the theorems apply to all points of both cells. -/
example : ∃ (t : CellTree Fl) (tol : ℚ), Makes Fl.env Ex.nearVerts Ex.gridFaces (-1) 4 2 t ∧
    t.tolerance Fl.env none = .ok (fin tol) ∧ FaceIs Ex.nearVerts (-1) [0, 1, 2, 3] Ex.nearCell ∧
    FaceIs Ex.nearVerts (-1) [1, 4, 5, 2] Ex.nearCell' ∧ ConvexPoly Ex.nearCell ∧ ConvexPoly Ex.nearCell' ∧
    GoodPoly 110 10 Ex.nearCell ∧ GoodPoly 110 10 Ex.nearCell' ∧
    (∀ s ∈ sides Ex.nearCell, s.1 ≠ s.2 → Clear s.1 s.2) ∧ slack 110 10 ≤ tol ∧ tol ≤ 2 ^ 200 ∧
    InPoly Ex.nearCell ⟨105, 105⟩ ∧ t.locatePoints Fl.env [fp ⟨105, 105⟩, fp ⟨105, 112⟩] none [0, 1] = .ok [0, -1] := by
  obtain ⟨t, h1, h2⟩ := bind_eq_ok.1 (show (CellTree.init Fl.env Ex.nearVerts Ex.gridFaces (-1) 4 2 [0, 1] >>= fun t =>
    Except.ok (t.tolerance Fl.env none, t.locatePoints Fl.env [fp ⟨105, 105⟩, fp ⟨105, 112⟩] none [0, 1])) =
      .ok (.ok (fin (3609184408887977 / 2 ^ 88)), .ok [0, -1]) by decide +kernel)
  have h3 := Prod.mk.inj (Except.ok.inj h2)
  exact ⟨t, _, ⟨_, by decide, h1⟩, h3.1, by decide +kernel, by decide +kernel, by decide +kernel, by decide +kernel,
    by decide +kernel, by decide +kernel, by decide +kernel, by decide +kernel, by decide +kernel, by decide +kernel, h3.2⟩

end Celltree
