import Verif.Proofs.FloatWhole
import Verif.Props.Floats
import Verif.Props.Convex

/-!
# Integer coordinates are located exactly in binary64: C121
-/

set_option linter.unusedSectionVars false

namespace Celltree.Fl

variable {env : Env Fl} {vertices : List (Pt Fl)} {faces : IntArr} {fill nBuckets cellsPerLeaf : Int} {t : CellTree Fl}
variable {points : List (Pt Fl)} {otol : Option Fl} {sched : List Nat} {res : List Int} {tol : ℚ}

/-! ## One polygon -/

/-- An integer point that is near a side between integer points is on the side. -/
theorem near_whole (h1 : 1 / 2 ^ 200 ≤ tol) (h2 : tol ≤ 1 / 2 ^ 20) {p a b : Pt ℚ} (hp : WholePt p) (ha : WholePt a)
    (hb : WholePt b) (hs : |b.x - a.x| ≤ 2 ^ 18 ∧ |b.y - a.y| ≤ 2 ^ 18) (hn : Near tol p (a, b)) :
    ∃ u, 0 ≤ u ∧ u ≤ 1 ∧ p = lineAt a b u := by
  have hab : a ≠ b := hn.1
  have hne : b.eqv a = false := by
    by_contra h
    unfold Pt.eqv at h
    simp only [Bool.not_eq_false, Bool.and_eq_true, beq_iff_eq] at h
    exact hab (Pt.ext' h.1.symm h.2.symm)
  have hw := (near_iff tol p a b hab).2 hn
  rw [Bool.and_eq_true] at hw
  obtain ⟨-, u1, u2⟩ := whole_toVector hp ha
  obtain ⟨-, v1, v2⟩ := whole_toVector hp hb
  obtain ⟨-, wA⟩ := whole_cross u1 u2 v1 v2
  obtain ⟨-, wL, hL⟩ := whole_side ha hb hs hne
  rw [whole_within_q h1 h2 wA wL hL, decide_eq_true_eq] at hw
  have h0 : orient a b p = 0 := by
    rw [← hw.1]; unfold cross toVector orient; ring
  unfold orient at h0
  obtain ⟨-, -, n1, n2⟩ := hn
  simp only at n1 n2
  rcases le_or_gt |b.y - a.y| |b.x - a.x| with h | h
  · obtain ⟨g1, g2⟩ := n1 h
    have hx : b.x - a.x ≠ 0 := by
      intro e
      rw [e, abs_zero] at h
      have := abs_eq_zero.1 (le_antisymm h (abs_nonneg _))
      exact hab (Pt.ext' (by linarith) (by linarith))
    refine ⟨(p.x - a.x) / (b.x - a.x), ?_, ?_, ?_⟩
    · rcases lt_or_gt_of_ne hx with hlt | hgt
      · rw [max_eq_left (by linarith)] at g2
        exact div_nonneg_of_nonpos (by linarith) hlt.le
      · rw [min_eq_left (by linarith)] at g1
        exact div_nonneg (by linarith) hgt.le
    · rcases lt_or_gt_of_ne hx with hlt | hgt
      · rw [min_eq_right (by linarith)] at g1
        rw [div_le_one_of_neg hlt]; linarith
      · rw [max_eq_right (by linarith)] at g2
        rw [div_le_one hgt]; linarith
    · unfold lineAt
      refine Pt.ext' ?_ ?_ <;> simp only <;> field_simp <;> linarith
  · obtain ⟨g1, g2⟩ := n2 h
    have hy : b.y - a.y ≠ 0 := by
      intro e
      rw [e, abs_zero] at h
      exact absurd (abs_nonneg (b.x - a.x)) (not_le.2 h)
    refine ⟨(p.y - a.y) / (b.y - a.y), ?_, ?_, ?_⟩
    · rcases lt_or_gt_of_ne hy with hlt | hgt
      · rw [max_eq_left (by linarith)] at g2
        exact div_nonneg_of_nonpos (by linarith) hlt.le
      · rw [min_eq_left (by linarith)] at g1
        exact div_nonneg (by linarith) hgt.le
    · rcases lt_or_gt_of_ne hy with hlt | hgt
      · rw [min_eq_right (by linarith)] at g1
        rw [div_le_one_of_neg hlt]; linarith
      · rw [max_eq_right (by linarith)] at g2
        rw [div_le_one hgt]; linarith
    · unfold lineAt
      refine Pt.ext' ?_ ?_ <;> simp only <;> field_simp <;> linarith

/-- **C121**, one polygon: for integer coordinates the test in binary64 has no rounding errors. It accepts exactly the points on the
sides and the points inside by the even-odd rule, whatever the polygon. -/
theorem C121_polygon_exact (h1 : 1 / 2 ^ 200 ≤ tol) (h2 : tol ≤ 1 / 2 ^ 20) {l : List (Pt ℚ)} (hne : l ≠ []) (hl : WholePoly l)
    {p : Pt ℚ} (hp : WholePt p) :
    ∃ b, pointInPolygonOrOnEdge (fp p) (l.map fp) (fin tol) = .ok b ∧
      (b = true ↔ (∃ s ∈ sides l, s.1 ≠ s.2 ∧ ∃ u, 0 ≤ u ∧ u ≤ 1 ∧ p = lineAt s.1 s.2 u) ∨
        Odd ((sides l).countP fun s => decide (Crosses p s))) := by
  rw [whole_polygon h1 h2 hp hl]
  obtain ⟨b, e1, e2⟩ := pointInPolygonOrOnEdge_eq p hne tol
  refine ⟨b, e1, e2.trans (or_congr ⟨?_, ?_⟩ Iff.rfl)⟩
  · rintro ⟨s, hs, hn⟩
    obtain ⟨m1, m2⟩ := mem_sides_mem hs
    exact ⟨s, hs, hn.1, near_whole h1 h2 hp (hl.corner _ m1) (hl.corner _ m2) (hl.small _ m1 _ m2) hn⟩
  · rintro ⟨s, hs, hne, u, g1, g2, rfl⟩
    exact ⟨s, hs, onSegment.near ⟨u, g1, g2, rfl, rfl⟩ hne (lt_of_lt_of_le (by positivity) h1)⟩

theorem _root_.Celltree.WholePoly.reverse {l : List (Pt ℚ)} (h : WholePoly l) : WholePoly l.reverse :=
  ⟨fun v hv => h.corner v (List.mem_reverse.1 hv), fun u hu v hv => h.small u (List.mem_reverse.1 hu) v (List.mem_reverse.1 hv)⟩

/-- **C121**, one convex polygon, in either direction: the test accepts exactly the points of the closed polygon. -/
theorem C121_convex_exact (h1 : 1 / 2 ^ 200 ≤ tol) (h2 : tol ≤ 1 / 2 ^ 20) {l l' : List (Pt ℚ)} (hc : ConvexPoly l)
    (hl : WholePoly l) (hl' : l' = l ∨ l' = l.reverse) {p : Pt ℚ} (hp : WholePt p) :
    ∃ b, pointInPolygonOrOnEdge (fp p) (l'.map fp) (fin tol) = .ok b ∧ (b = true ↔ InPoly l p) := by
  have hw' : WholePoly l' := by
    rcases hl' with rfl | rfl
    · exact hl
    · exact hl.reverse
  have hne : l' ≠ [] := by
    rcases hl' with rfl | rfl
    · exact hc.ne_nil
    · simpa using hc.ne_nil
  rw [whole_polygon h1 h2 hp hw']
  obtain ⟨b, e1, -⟩ := pointInPolygonOrOnEdge_eq p hne tol
  refine ⟨b, e1, ?_, ?_⟩
  · rintro rfl
    by_contra hn
    obtain ⟨s, hs, hnear⟩ := C25_exterior_accepted_only_near hc hl' hn e1
    obtain ⟨m1, m2⟩ := mem_sides_mem hs
    obtain ⟨u, g1, g2, rfl⟩ := near_whole h1 h2 hp (hl.corner _ m1) (hl.corner _ m2) (hl.small _ m1 _ m2) hnear
    exact hn ((hc.corner_inPoly m1).convex (hc.corner_inPoly m2) g1 g2)
  · intro hin
    rw [C24_closed_accepted hc hl' hin (lt_of_lt_of_le (by positivity) h1)] at e1
    exact (Except.ok.inj e1).symm

/-! ## Location of points -/

/-- **C121**: let the corners of the faces and the points be at integer coordinates of at most `2 ^ 25`, and the faces convex with
bounding boxes of at most `2 ^ 18`. Then in binary64 `locate_points` is exact: the answer for a point is the number of a face that
contains the point, the boundary included, or `-1`, and then the point is in no face. -/
theorem C121_locate_exact (hm : GoodMesh env vertices faces fill)
    (ht : Makes env vertices faces fill nBuckets cellsPerLeaf t) (hrep : ∀ v ∈ vertices, Rep v.x ∧ Rep v.y)
    (hs : sched.Perm (List.range points.length)) (htol : t.tolerance env otol = .ok (fin tol)) (h1 : 1 / 2 ^ 200 ≤ tol)
    (h2 : tol ≤ 1 / 2 ^ 20) (hfaces : ∀ r ∈ faces.rows, ∃ l, FaceIs vertices fill r l ∧ ConvexPoly l ∧ WholePoly l) :
    ∃ res, t.locatePoints env points otol sched = .ok res ∧ ∀ (i : Nat) (p : Pt ℚ), points[i]? = some (fp p) → WholePt p →
      ∃ v, res[i]? = some v ∧
        (v ≠ -1 → ∃ (j : Nat) (r : List Int) (l : List (Pt ℚ)), v = j ∧ faces.rows[j]? = some r ∧ FaceIs vertices fill r l ∧
          ConvexPoly l ∧ InPoly l p) ∧
        (v = -1 → ∀ r ∈ faces.rows, ∀ l, FaceIs vertices fill r l → ConvexPoly l → ¬ InPoly l p) := by
  obtain ⟨res, hres, hlen⟩ := C66_never_raises hm ht hrep hs otol
  refine ⟨res, hres, ?_⟩
  intro i p hp hw
  have hi : i < res.length := by rw [hlen]; exact (List.getElem?_eq_some_iff.1 hp).1
  rw [locatePoints_tol htol] at hres
  refine ⟨res[i], by simp, ?_, ?_⟩
  · intro h0
    obtain ⟨j, r, hj, hrow, poly, hpoly, hacc⟩ := C06_located_point_passes_test hm ht hs hres hp (List.getElem?_eq_getElem hi) h0
    obtain ⟨l, hf, hc, hl⟩ := hfaces r (List.mem_of_getElem? hrow)
    obtain ⟨l', hl', rfl⟩ := hf.poly hpoly
    obtain ⟨b, e1, e2⟩ := C121_convex_exact h1 h2 hc hl hl' hw
    rw [e1] at hacc
    exact ⟨j, r, l, hj, hrow, hf, hc, e2.1 (Except.ok.inj hacc)⟩
  · intro hv r hr l hf hc hin
    obtain ⟨j, hj⟩ := List.mem_iff_getElem?.1 hr
    have hmem : ∀ v ∈ l, fp v ∈ facePts vertices fill r := by
      intro v hv
      rcases hf with h | h <;> rw [h]
      · exact List.mem_map_of_mem hv
      · exact List.mem_map_of_mem (List.mem_reverse.2 hv)
    have hbox : InBoxOf (facePts vertices fill r) (fp p) := by
      obtain ⟨⟨a, a1, a2⟩, ⟨b, b1, b2⟩, ⟨c, c1, c2⟩, ⟨d, d1, d2⟩⟩ := hc.inBoxOf hin
      exact ⟨⟨_, hmem a a1, (le_fin _ _).2 a2⟩, ⟨_, hmem b b1, (le_fin _ _).2 b2⟩, ⟨_, hmem c c1, (le_fin _ _).2 c2⟩,
        ⟨_, hmem d d1, (le_fin _ _).2 d2⟩⟩
    obtain ⟨poly, hpoly, hrej⟩ := C07_missed_point_fails_tests hm ht hs hres hp
      (by rw [List.getElem?_eq_getElem hi, hv]) hj hbox
    obtain ⟨l', hl', rfl⟩ := hf.poly hpoly
    obtain ⟨lw, hfw, -, hlw⟩ := hfaces r hr
    have hl : WholePoly l := by
      have key : ∀ v ∈ l, v ∈ lw := by
        intro v hv
        have := hmem v hv
        have inj : ∀ {u w : Pt ℚ}, fp u = fp w → u = w := by
          intro u w h
          unfold fp at h
          injection h with g1 g2
          exact Pt.ext' (Fl.fin.inj g1) (Fl.fin.inj g2)
        rcases hfw with h | h <;> rw [h] at this <;> obtain ⟨w, w1, w2⟩ := List.mem_map.1 this <;> rw [← inj w2]
        · exact w1
        · exact List.mem_reverse.1 w1
      exact ⟨fun v hv => hlw.corner v (key v hv), fun u hu v hv => hlw.small u (key u hu) v (key v hv)⟩
    obtain ⟨b, e1, e2⟩ := C121_convex_exact h1 h2 hc hl hl' hw
    rw [e1, e2.2 hin] at hrej
    cases hrej

/-! ## The default tolerance -/

/-- The bounding box of a list of points with rational coordinates. -/
theorem map_bbox {l : List (Pt ℚ)} {pts : List (Pt Fl)} (h : ∀ q ∈ pts, ∃ v ∈ l, fp v = q) {b : Box Fl} (hb : IsBBox pts b) :
    ∃ c : Box ℚ, b = fbox c ∧ c.xmin ≤ c.xmax ∧ c.ymin ≤ c.ymax ∧ (∃ v ∈ l, v.x = c.xmin) ∧ (∃ v ∈ l, v.x = c.xmax) ∧
      (∃ v ∈ l, v.y = c.ymin) ∧ (∃ v ∈ l, v.y = c.ymax) := by
  obtain ⟨p1, p1', e1⟩ := hb.left
  obtain ⟨p2, p2', e2⟩ := hb.right
  obtain ⟨p3, p3', e3⟩ := hb.bottom
  obtain ⟨p4, p4', e4⟩ := hb.top
  obtain ⟨v1, m1, rfl⟩ := h p1 p1'
  obtain ⟨v2, m2, rfl⟩ := h p2 p2'
  obtain ⟨v3, m3, rfl⟩ := h p3 p3'
  obtain ⟨v4, m4, rfl⟩ := h p4 p4'
  obtain ⟨-, c2, -, -⟩ := hb.contains _ p1'
  obtain ⟨-, -, -, c4⟩ := hb.contains _ p3'
  rw [← e2] at c2
  rw [← e4] at c4
  refine ⟨⟨v1.x, v2.x, v3.y, v4.y⟩, ?_, (le_fin _ _).1 c2, (le_fin _ _).1 c4, ⟨v1, m1, rfl⟩, ⟨v2, m2, rfl⟩, ⟨v3, m3, rfl⟩,
    ⟨v4, m4, rfl⟩⟩
  obtain ⟨b1, b2, b3, b4⟩ := b
  simp only at e1 e2 e3 e4
  rw [← e1, ← e2, ← e3, ← e4]; rfl

/-- **C121**, the tolerance: the default tolerance satisfies the conditions of `C121_locate_exact`. -/
theorem C121_default_tolerance (hm : GoodMesh Fl.env vertices faces fill)
    (ht : Makes Fl.env vertices faces fill nBuckets cellsPerLeaf t)
    (hfaces : ∀ r ∈ faces.rows, ∃ l, FaceIs vertices fill r l ∧ ConvexPoly l ∧ WholePoly l) :
    ∃ tol, t.tolerance Fl.env none = .ok (fin tol) ∧ 1 / 2 ^ 200 ≤ tol ∧ tol ≤ 1 / 2 ^ 20 := by
  obtain ⟨_, hne, bt, hc⟩ := ht.constructed' hm
  have := boxes_tolerance (S := 2 ^ 18) (by norm_num) (by norm_num) hc.distances ?_ ?_
  · obtain ⟨tol, e1, e2, e3⟩ := this
    refine ⟨tol, e1, le_trans (by norm_num) e2, e3.trans (by norm_num)⟩
  · intro h1
    have := hc.boxes.length
    rw [h1] at this
    exact hne (List.length_eq_zero_iff.1 this.symm)
  · intro b hb
    obtain ⟨i, hi⟩ := List.mem_iff_getElem?.1 hb
    have hi' : i < faces.rows.length := by rw [← hc.boxes.length]; exact (List.getElem?_eq_some_iff.1 hi).1
    obtain ⟨b', h1, h2⟩ := hc.boxes.box i _ (List.getElem?_eq_getElem hi')
    rw [hi] at h1
    obtain rfl := Option.some.inj h1
    obtain ⟨l, hf, -, hl⟩ := hfaces _ (List.getElem_mem hi')
    have hpts : ∀ q ∈ facePts vertices fill faces.rows[i], ∃ v ∈ l, fp v = q := by
      intro q hq
      rcases hf with h | h <;> rw [h] at hq <;> obtain ⟨v, v1, v2⟩ := List.mem_map.1 hq
      · exact ⟨v, v1, v2⟩
      · exact ⟨v, List.mem_reverse.1 v1, v2⟩
    obtain ⟨c, g1, g2, g3, ⟨u1, n1, k1⟩, ⟨u2, n2, k2⟩, ⟨u3, n3, k3⟩, ⟨u4, n4, k4⟩⟩ := map_bbox hpts h2
    refine ⟨c, g1, g2, g3, ?_, ?_⟩
    · rw [← k1, ← k2]; exact (abs_le.1 (hl.small u1 n1 u2 n2).1).2
    · rw [← k3, ← k4]; exact (abs_le.1 (hl.small u3 n3 u4 n4).2).2

/-- **C121** with the default tolerance. -/
theorem C121_locate_default (hm : GoodMesh Fl.env vertices faces fill)
    (ht : Makes Fl.env vertices faces fill nBuckets cellsPerLeaf t) (hrep : ∀ v ∈ vertices, Rep v.x ∧ Rep v.y)
    (hs : sched.Perm (List.range points.length))
    (hfaces : ∀ r ∈ faces.rows, ∃ l, FaceIs vertices fill r l ∧ ConvexPoly l ∧ WholePoly l) :
    ∃ res, t.locatePoints Fl.env points none sched = .ok res ∧ ∀ (i : Nat) (p : Pt ℚ), points[i]? = some (fp p) → WholePt p →
      ∃ v, res[i]? = some v ∧
        (v ≠ -1 → ∃ (j : Nat) (r : List Int) (l : List (Pt ℚ)), v = j ∧ faces.rows[j]? = some r ∧ FaceIs vertices fill r l ∧
          ConvexPoly l ∧ InPoly l p) ∧
        (v = -1 → ∀ r ∈ faces.rows, ∀ l, FaceIs vertices fill r l → ConvexPoly l → ¬ InPoly l p) := by
  obtain ⟨tol, e1, e2, e3⟩ := C121_default_tolerance hm ht hfaces
  exact C121_locate_exact hm ht hrep hs e1 e2 e3 hfaces

end Celltree.Fl

/-! ## Examples -/

set_option synthInstance.maxSize 1000

namespace Celltree.Ex

open Fl

def wholePt (x y : Int) : Pt Fl := fp ⟨x, y⟩

/-- Two cells in the Dutch national grid with a slanted side in common, at whole metres. -/
def wholeVerts : List (Pt Fl) := [wholePt 155000 463000, wholePt 155006 463001, wholePt 155004 463009, wholePt 155000 463010,
  wholePt 155010 463000, wholePt 155010 463010]
def wholeFaces : IntArr := ⟨4, [[0, 1, 2, 3], [1, 4, 5, 2]]⟩
def wholeCell : List (Pt ℚ) := [⟨155000, 463000⟩, ⟨155006, 463001⟩, ⟨155004, 463009⟩, ⟨155000, 463010⟩]
def wholeCell' : List (Pt ℚ) := [⟨155006, 463001⟩, ⟨155010, 463000⟩, ⟨155010, 463010⟩, ⟨155004, 463009⟩]

theorem whole_good : GoodMesh Fl.env wholeVerts wholeFaces (-1) :=
  ⟨⟨by decide, fun r hr => by
    simp only [wholeFaces, List.mem_cons, List.not_mem_nil, or_false] at hr
    rcases hr with rfl | rfl <;> exact ⟨by decide, by decide, by decide⟩⟩, by
      intro r hr p hp
      have : ∀ p ∈ wholeVerts, p.x ≠ Fl.nan ∧ p.y ≠ Fl.nan := by decide +kernel
      unfold facePts at hp
      obtain ⟨k, _, hk⟩ := List.mem_filterMap.1 hp
      exact this p (List.mem_of_getElem? hk), nofun, nofun⟩

theorem whole_rep {n : Nat} {q : ℚ} (h : Whole n q) (hn : n ≤ 53) : Rep (fin q) :=
  ⟨h.isRep hn, h.abs_le.trans (pow_le_big (by omega))⟩

theorem wholePt_iff {p : Pt ℚ} (hx : p.x.den = 1 ∧ |p.x.num| ≤ 2 ^ 25) (hy : p.y.den = 1 ∧ |p.y.num| ≤ 2 ^ 25) : WholePt p :=
  ⟨⟨p.x.num, (Rat.coe_int_num_of_den_eq_one hx.1).symm, hx.2⟩, ⟨p.y.num, (Rat.coe_int_num_of_den_eq_one hy.1).symm, hy.2⟩⟩

theorem wholePoly_iff {l : List (Pt ℚ)} (h : ∀ v ∈ l, (v.x.den = 1 ∧ |v.x.num| ≤ 2 ^ 25) ∧ (v.y.den = 1 ∧ |v.y.num| ≤ 2 ^ 25))
    (hs : ∀ u ∈ l, ∀ v ∈ l, |v.x - u.x| ≤ 2 ^ 18 ∧ |v.y - u.y| ≤ 2 ^ 18) : WholePoly l :=
  ⟨fun v hv => wholePt_iff (h v hv).1 (h v hv).2, hs⟩

theorem wholeCell_whole : WholePoly wholeCell := wholePoly_iff (by decide +kernel) (by decide +kernel)
theorem wholeCell'_whole : WholePoly wholeCell' := wholePoly_iff (by decide +kernel) (by decide +kernel)

theorem whole_faces : ∀ r ∈ wholeFaces.rows, ∃ l, FaceIs wholeVerts (-1) r l ∧ ConvexPoly l ∧ WholePoly l := by
  intro r hr
  simp only [wholeFaces, List.mem_cons, List.not_mem_nil, or_false] at hr
  rcases hr with rfl | rfl
  · exact ⟨wholeCell, by decide +kernel, by decide +kernel, wholeCell_whole⟩
  · exact ⟨wholeCell', by decide +kernel, by decide +kernel, wholeCell'_whole⟩

theorem whole_verts_rep : ∀ v ∈ wholeVerts, Rep v.x ∧ Rep v.y := by
  intro v hv
  have : ∀ v ∈ wholeVerts, ∃ q ∈ wholeCell ++ wholeCell', fp q = v := by decide +kernel
  obtain ⟨q, hq, rfl⟩ := this v hv
  have hw : WholePt q := by
    rcases List.mem_append.1 hq with h | h
    · exact wholeCell_whole.corner q h
    · exact wholeCell'_whole.corner q h
  exact ⟨whole_rep hw.1 (by norm_num), whole_rep hw.2 (by norm_num)⟩

end Celltree.Ex

namespace Celltree.Fl

/-- In this mesh, with the default tolerance, an integer point is located if and only if it is in one of the two cells. -/
example : ∃ t, Makes Fl.env Ex.wholeVerts Ex.wholeFaces (-1) 4 2 t ∧
    t.locatePoints Fl.env [Ex.wholePt 155005 463005, Ex.wholePt 155007 463005, Ex.wholePt 155002 463010] none [0, 1, 2] =
      .ok [0, 1, -1] ∧
    ∀ p : Pt ℚ, WholePt p → ∃ res v, t.locatePoints Fl.env [fp p] none [0] = .ok res ∧ res[0]? = some v ∧
      (v = -1 ↔ ¬ InPoly Ex.wholeCell p ∧ ¬ InPoly Ex.wholeCell' p) := by
  obtain ⟨t, h1, h2⟩ := bind_eq_ok.1 (show (CellTree.init Fl.env Ex.wholeVerts Ex.wholeFaces (-1) 4 2 [0, 1] >>= fun t =>
    t.locatePoints Fl.env [Ex.wholePt 155005 463005, Ex.wholePt 155007 463005, Ex.wholePt 155002 463010] none [0, 1, 2]) =
      .ok [0, 1, -1] by decide +kernel)
  have hmk : Makes Fl.env Ex.wholeVerts Ex.wholeFaces (-1) 4 2 t := ⟨_, by decide, h1⟩
  refine ⟨t, hmk, h2, fun p hp => ?_⟩
  obtain ⟨tol, e1, e2, e3⟩ := C121_default_tolerance Ex.whole_good hmk Ex.whole_faces
  obtain ⟨res, g1, g2⟩ := C121_locate_default (points := [fp p]) Ex.whole_good hmk Ex.whole_verts_rep (List.Perm.refl [0])
    Ex.whole_faces
  obtain ⟨v, f1, f2, f3⟩ := g2 0 p rfl hp
  refine ⟨res, v, g1, f1, fun hv => ⟨?_, ?_⟩, fun hn => ?_⟩
  · exact f3 hv _ (by decide) _ (show FaceIs Ex.wholeVerts (-1) [0, 1, 2, 3] Ex.wholeCell by decide +kernel) (by decide +kernel)
  · exact f3 hv _ (by decide) _ (show FaceIs Ex.wholeVerts (-1) [1, 4, 5, 2] Ex.wholeCell' by decide +kernel) (by decide +kernel)
  · by_contra h0
    obtain ⟨j, r, hj, hrow, poly, hpoly, hacc⟩ := C06_located_point_passes_test Ex.whole_good hmk (List.Perm.refl [0])
      ((locatePoints_tol e1 _ _).symm.trans g1) rfl f1 h0
    have hr := List.mem_of_getElem? hrow
    simp only [Ex.wholeFaces, List.mem_cons, List.not_mem_nil, or_false] at hr
    rcases hr with rfl | rfl
    · obtain ⟨l', hl', rfl⟩ := FaceIs.poly (show FaceIs Ex.wholeVerts (-1) [0, 1, 2, 3] Ex.wholeCell by decide +kernel) hpoly
      obtain ⟨b, k1, k2⟩ := C121_convex_exact e2 e3 (by decide +kernel) Ex.wholeCell_whole hl' hp
      rw [k1] at hacc
      exact hn.1 (k2.1 (Except.ok.inj hacc))
    · obtain ⟨l', hl', rfl⟩ := FaceIs.poly (show FaceIs Ex.wholeVerts (-1) [1, 4, 5, 2] Ex.wholeCell' by decide +kernel) hpoly
      obtain ⟨b, k1, k2⟩ := C121_convex_exact e2 e3 (by decide +kernel) Ex.wholeCell'_whole hl' hp
      rw [k1] at hacc
      exact hn.2 (k2.1 (Except.ok.inj hacc))

/-- The limit on the size of the faces is needed: a triangle of `2 ^ 21` gets the point `(1, 1)`, which is outside, and nearer than
the default tolerance. -/
theorem C121_limit_matters : ∃ t, Makes Fl.env [Ex.wholePt 0 0, Ex.wholePt (2 ^ 21) 0, Ex.wholePt (2 ^ 21) (2 ^ 21 - 1)]
      ⟨3, [[0, 1, 2]]⟩ (-1) 4 2 t ∧ t.locatePoints Fl.env [Ex.wholePt 1 1] none [0] = .ok [0] ∧
    ¬ InPoly [(⟨0, 0⟩ : Pt ℚ), ⟨2 ^ 21, 0⟩, ⟨2 ^ 21, 2 ^ 21 - 1⟩] ⟨1, 1⟩ := by
  obtain ⟨t, h1, h2⟩ := bind_eq_ok.1 (show (CellTree.init Fl.env [Ex.wholePt 0 0, Ex.wholePt (2 ^ 21) 0,
    Ex.wholePt (2 ^ 21) (2 ^ 21 - 1)] ⟨3, [[0, 1, 2]]⟩ (-1) 4 2 [0] >>= fun t =>
    t.locatePoints Fl.env [Ex.wholePt 1 1] none [0]) = .ok [0] by decide +kernel)
  exact ⟨t, ⟨_, by decide, h1⟩, h2, by decide +kernel⟩

end Celltree.Fl
