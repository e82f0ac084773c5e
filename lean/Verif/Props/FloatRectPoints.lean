import Verif.Proofs.FloatTol
import Verif.Props.Floats
import Verif.Props.FloatRects

/-!
# Points in meshes of rectangles in binary64: C110
-/

set_option linter.unusedSectionVars false

namespace Celltree.Fl

variable {env : Env Fl} {vertices : List (Pt Fl)} {faces : IntArr} {fill nBuckets cellsPerLeaf : Int} {t : CellTree Fl}
variable {points : List (Pt Fl)} {otol : Option Fl} {sched : List Nat} {res : List Int} {tol : ℚ}

/-! ## The default tolerance -/

/-- The bounding box of a rectangle is the rectangle. -/
theorem rect_bbox {pts : List (Pt Fl)} {c : Box ℚ} (h : IsRect pts c) (hx : c.xmin ≤ c.xmax) (hy : c.ymin ≤ c.ymax) {b : Box Fl}
    (hb : IsBBox pts b) : b = fbox c := by
  obtain ⟨m1, m2⟩ := rect_mem h
  have hall : ∀ p ∈ pts, (p.x = fin c.xmin ∨ p.x = fin c.xmax) ∧ (p.y = fin c.ymin ∨ p.y = fin c.ymax) := by
    obtain ⟨l, hl, h⟩ := h
    have hv : ∀ v ∈ l, (v.x = c.xmin ∨ v.x = c.xmax) ∧ (v.y = c.ymin ∨ v.y = c.ymax) := by
      intro v hv
      have := hl.mem_iff.1 hv
      unfold rectPts at this
      simp only [List.mem_cons, List.not_mem_nil, or_false] at this
      rcases this with rfl | rfl | rfl | rfl <;> simp
    intro p hp
    have : ∃ v ∈ l, fp v = p := by
      rcases h with h | h <;> rw [h] at hp
      · exact List.mem_map.1 hp
      · obtain ⟨v, h1, h2⟩ := List.mem_map.1 hp
        exact ⟨v, List.mem_reverse.1 h1, h2⟩
    obtain ⟨v, h1, rfl⟩ := this
    unfold fp
    exact ⟨(hv v h1).1.imp (congrArg fin) (congrArg fin), (hv v h1).2.imp (congrArg fin) (congrArg fin)⟩
  obtain ⟨c1, c2, c3, c4⟩ := hb.contains _ m1
  obtain ⟨d1, d2, d3, d4⟩ := hb.contains _ m2
  obtain ⟨p1, p1', e1⟩ := hb.left
  obtain ⟨p2, p2', e2⟩ := hb.right
  obtain ⟨p3, p3', e3⟩ := hb.bottom
  obtain ⟨p4, p4', e4⟩ := hb.top
  have f1 := (hall p1 p1').1
  have f2 := (hall p2 p2').1
  have f3 := (hall p3 p3').2
  have f4 := (hall p4 p4').2
  rw [e1] at f1
  rw [e2] at f2
  rw [e3] at f3
  rw [e4] at f4
  have g1 : b.xmin = fin c.xmin := by
    rcases f1 with h | h
    · exact h
    · rw [h] at c1 ⊢
      exact congrArg fin (le_antisymm ((le_fin _ _).1 c1) hx)
  have g2 : b.xmax = fin c.xmax := by
    rcases f2 with h | h
    · rw [h] at d2 ⊢
      exact congrArg fin (le_antisymm hx ((le_fin _ _).1 d2))
    · exact h
  have g3 : b.ymin = fin c.ymin := by
    rcases f3 with h | h
    · exact h
    · rw [h] at c3 ⊢
      exact congrArg fin (le_antisymm ((le_fin _ _).1 c3) hy)
  have g4 : b.ymax = fin c.ymax := by
    rcases f4 with h | h
    · rw [h] at d4 ⊢
      exact congrArg fin (le_antisymm hy ((le_fin _ _).1 d4))
    · exact h
  obtain ⟨b1, b2, b3, b4⟩ := b
  simp only at g1 g2 g3 g4
  rw [g1, g2, g3, g4]; rfl

/-- **C110**, the tolerance: for a mesh of rectangles of sides at most `S`, the default tolerance satisfies the conditions of the
other theorems. It is at most `2 ^ -49`, or at most `2 ^ -38` of the size of the rectangles. -/
theorem C110_default_tolerance (hm : GoodMesh Fl.env vertices faces fill)
    (ht : Makes Fl.env vertices faces fill nBuckets cellsPerLeaf t) {S : ℚ} (hS : 1 / 2 ^ 200 ≤ S) (hS' : S ≤ 2 ^ 201)
    (hrect : ∀ r ∈ faces.rows, ∃ c, IsRect (facePts vertices fill r) c ∧ c.xmin ≤ c.xmax ∧ c.ymin ≤ c.ymax ∧
      c.xmax - c.xmin ≤ S ∧ c.ymax - c.ymin ≤ S) :
    ∃ tol, t.tolerance Fl.env none = .ok (fin tol) ∧ 1 / 2 ^ 50 ≤ tol ∧ tol ≤ max (1 / 2 ^ 49) (S / 2 ^ 38) := by
  obtain ⟨_, hne, bt, hc⟩ := ht.constructed' hm
  refine boxes_tolerance hS hS' hc.distances ?_ ?_
  · intro h1
    have := hc.boxes.length
    rw [h1] at this
    exact hne (List.length_eq_zero_iff.1 this.symm)
  · intro b hb
    obtain ⟨i, hi⟩ := List.mem_iff_getElem?.1 hb
    have hi' : i < faces.rows.length := by rw [← hc.boxes.length]; exact (List.getElem?_eq_some_iff.1 hi).1
    obtain ⟨b', h1, h2⟩ := hc.boxes.box i _ (List.getElem?_eq_getElem hi')
    rw [hi] at h1
    obtain rfl := Option.some.inj h1
    obtain ⟨c, g1, g2, g3, g4⟩ := hrect _ (List.getElem_mem hi')
    exact ⟨c, rect_bbox g1 g2 g3 h2, g2, g3, g4⟩

/-! ## Location of points -/

theorem rect_poly {pts poly : List (Pt Fl)} {c : Box ℚ} (h : IsRect pts c) (hp : poly = pts ∨ poly = pts.reverse) :
    ∃ l l', l ~r rectPts c ∧ (l' = l ∨ l' = l.reverse) ∧ poly = l'.map fp := by
  obtain ⟨l, hl, h | h⟩ := h <;> rcases hp with rfl | rfl <;> rw [h]
  · exact ⟨l, l, hl, .inl rfl, rfl⟩
  · exact ⟨l, l.reverse, hl, .inr rfl, by rw [List.map_reverse]⟩
  · exact ⟨l, l.reverse, hl, .inr rfl, rfl⟩
  · exact ⟨l, l, hl, .inl rfl, by rw [← List.map_reverse, List.reverse_reverse]⟩

/-- **C110**, the points are found: in binary64 every point of a closed rectangle is located, in some face. The other faces of the
mesh can be anything. -/
theorem C110_points_found (hm : GoodMesh env vertices faces fill)
    (ht : Makes env vertices faces fill nBuckets cellsPerLeaf t) (hrep : ∀ v ∈ vertices, Rep v.x ∧ Rep v.y)
    (hs : sched.Perm (List.range points.length)) (htol : t.tolerance env otol = .ok (fin tol)) (h1 : 1 / 2 ^ 200 ≤ tol)
    (h2 : tol ≤ 2 ^ 200) {r : List Int} (hr : r ∈ faces.rows) {c : Box ℚ} (hf : IsRect (facePts vertices fill r) c)
    (hc : PlainRect c) {i : Nat} {p : Pt ℚ} (hp : points[i]? = some (fp p)) (hin : InBox c p) :
    ∃ res v, t.locatePoints env points otol sched = .ok res ∧ res[i]? = some v ∧ v ≠ -1 := by
  obtain ⟨res, hres, hlen⟩ := C66_never_raises hm ht hrep hs otol
  have hi : i < res.length := by rw [hlen]; exact (List.getElem?_eq_some_iff.1 hp).1
  refine ⟨res, res[i], hres, by simp, ?_⟩
  intro hv
  obtain ⟨j, hj⟩ := List.mem_iff_getElem?.1 hr
  rw [locatePoints_tol htol] at hres
  obtain ⟨g1, g2, g3, g4⟩ := hin
  have hbox : InBoxOf (facePts vertices fill r) (fp p) := by
    obtain ⟨m1, m2⟩ := rect_mem hf
    exact ⟨⟨_, m1, (le_fin _ _).2 g1⟩, ⟨_, m2, (le_fin _ _).2 g2⟩, ⟨_, m1, (le_fin _ _).2 g3⟩, ⟨_, m2, (le_fin _ _).2 g4⟩⟩
  obtain ⟨poly, hpoly, hrej⟩ := C07_missed_point_fails_tests hm ht hs hres hp
    (by rw [List.getElem?_eq_getElem hi, hv]) hj hbox
  obtain ⟨l, l', hl, hl', rfl⟩ := rect_poly hf hpoly
  have hb : Bnd (2 ^ 200) p := by
    have a1 := abs_le.1 hc.xmin.2
    have a2 := abs_le.1 hc.xmax.2
    have a3 := abs_le.1 hc.ymin.2
    have a4 := abs_le.1 hc.ymax.2
    exact ⟨abs_le.2 ⟨by linarith, by linarith⟩, abs_le.2 ⟨by linarith, by linarith⟩⟩
  obtain ⟨b, e1, e2⟩ := hc.test hl hl' h1 h2 hb
  rw [e1, e2.2 (hc.accepts hl hl' h1 ⟨g1, g2, g3, g4⟩)] at hrej
  cases hrej

/-- **C110**, the points are close: in a mesh of rectangles, a point is located in a rectangle that contains it, or it is nearer
to the rectangle than the tolerance, up to a relative error of `2 ^ -47` of the tolerance. -/
theorem C110_located_close (hm : GoodMesh env vertices faces fill)
    (ht : Makes env vertices faces fill nBuckets cellsPerLeaf t) (hs : sched.Perm (List.range points.length))
    (htol : t.tolerance env otol = .ok (fin tol)) (h1 : 1 / 2 ^ 200 ≤ tol) (h2 : tol ≤ 2 ^ 200)
    (hrect : ∀ r ∈ faces.rows, ∃ c, IsRect (facePts vertices fill r) c ∧ PlainRect c)
    (hr : t.locatePoints env points otol sched = .ok res) {i : Nat} {p : Pt ℚ} {v : Int} (hp : points[i]? = some (fp p))
    (hb : Bnd (2 ^ 200) p) (hv : res[i]? = some v) (h0 : v ≠ -1) :
    ∃ (j : Nat) (r : List Int) (c : Box ℚ), v = j ∧ faces.rows[j]? = some r ∧ IsRect (facePts vertices fill r) c ∧ PlainRect c ∧
      NearBox ((1 + 1 / 2 ^ 47) * tol) c p := by
  rw [locatePoints_tol htol] at hr
  obtain ⟨j, r, hj, hrow, poly, hpoly, hacc⟩ := C06_located_point_passes_test hm ht hs hr hp hv h0
  obtain ⟨c, hf, hc⟩ := hrect r (List.mem_of_getElem? hrow)
  obtain ⟨l, l', hl, hl', rfl⟩ := rect_poly hf hpoly
  obtain ⟨b, e1, e2⟩ := hc.test hl hl' h1 h2 hb
  rw [e1] at hacc
  exact ⟨j, r, c, hj, hrow, hf, hc, hc.sound hl hl' h1 (e2.1 (Except.ok.inj hacc))⟩

/-- **C110**, the result: a point of a rectangle that is farther than the tolerance from all other faces is located in that
rectangle. -/
theorem C110_located_in (hm : GoodMesh env vertices faces fill)
    (ht : Makes env vertices faces fill nBuckets cellsPerLeaf t) (hrep : ∀ v ∈ vertices, Rep v.x ∧ Rep v.y)
    (hs : sched.Perm (List.range points.length)) (htol : t.tolerance env otol = .ok (fin tol)) (h1 : 1 / 2 ^ 200 ≤ tol)
    (h2 : tol ≤ 2 ^ 200) (hrect : ∀ r ∈ faces.rows, ∃ c, IsRect (facePts vertices fill r) c ∧ PlainRect c)
    {j : Nat} {r : List Int} (hj : faces.rows[j]? = some r) {c : Box ℚ} (hf : IsRect (facePts vertices fill r) c)
    (hc : PlainRect c) {i : Nat} {p : Pt ℚ} (hp : points[i]? = some (fp p)) (hin : InBox c p)
    (hfar : ∀ (k : Nat) s d, k ≠ j → faces.rows[k]? = some s → IsRect (facePts vertices fill s) d →
      ¬ NearBox ((1 + 1 / 2 ^ 47) * tol) d p) :
    ∃ res, t.locatePoints env points otol sched = .ok res ∧ res[i]? = some (j : Int) := by
  have hmem := List.mem_of_getElem? hj
  obtain ⟨res, v, e1, e2, e3⟩ := C110_points_found hm ht hrep hs htol h1 h2 hmem hf hc hp hin
  obtain ⟨g1, g2, g3, g4⟩ := hin
  have hb : Bnd (2 ^ 200) p := by
    have a1 := abs_le.1 hc.xmin.2
    have a2 := abs_le.1 hc.xmax.2
    have a3 := abs_le.1 hc.ymin.2
    have a4 := abs_le.1 hc.ymax.2
    exact ⟨abs_le.2 ⟨by linarith, by linarith⟩, abs_le.2 ⟨by linarith, by linarith⟩⟩
  obtain ⟨k, s, d, f1, f2, f3, _, f4⟩ := C110_located_close hm ht hs htol h1 h2 hrect e1 hp hb e2 e3
  refine ⟨res, e1, ?_⟩
  by_cases hk : k = j
  · rw [e2, f1, hk]
  · exact absurd f4 (hfar k s d hk f2 f3)

end Celltree.Fl

/-! ## An example

Two cells of 10 m in the Dutch national grid. The default tolerance of `1.4e-11` is smaller than the rounding errors of the
coordinates, so that C67 does not apply. -/

set_option synthInstance.maxSize 1000

namespace Celltree.Ex

open Fl

def rdX1 : ℚ := 5325762883013837 / 2 ^ 35
def rdX2 : ℚ := 5326106480397517 / 2 ^ 35
def rdX3 : ℚ := 5326450077781197 / 2 ^ 35
def rdY1 : ℚ := 7954284586152755 / 2 ^ 34
def rdY2 : ℚ := 7954456384844595 / 2 ^ 34

/-- The values of the coordinates. -/
theorem rd_coords : rnd 155000.1 = fin rdX1 ∧ rnd 155010.1 = fin rdX2 ∧ rnd 155020.1 = fin rdX3 ∧ rnd 463000.3 = fin rdY1 ∧
    rnd 463010.3 = fin rdY2 := by decide +kernel

def rdVerts : List (Pt Fl) := [fp ⟨rdX1, rdY1⟩, fp ⟨rdX2, rdY1⟩, fp ⟨rdX3, rdY1⟩, fp ⟨rdX1, rdY2⟩, fp ⟨rdX2, rdY2⟩, fp ⟨rdX3, rdY2⟩]
def rdFaces : IntArr := ⟨4, [[1, 0, 3, 4], [4, 1, 2, 5]]⟩
def rdCell1 : Box ℚ := ⟨rdX1, rdX2, rdY1, rdY2⟩
def rdCell2 : Box ℚ := ⟨rdX2, rdX3, rdY1, rdY2⟩

theorem rd_good : GoodMesh Fl.env rdVerts rdFaces (-1) :=
  ⟨⟨by decide, fun r hr => by
    simp only [rdFaces, List.mem_cons, List.not_mem_nil, or_false] at hr
    rcases hr with rfl | rfl <;> exact ⟨by decide, by decide, by decide⟩⟩, by
      intro r hr p hp
      have : ∀ p ∈ rdVerts, p.x ≠ Fl.nan ∧ p.y ≠ Fl.nan := by decide +kernel
      unfold facePts at hp
      obtain ⟨k, _, hk⟩ := List.mem_filterMap.1 hp
      exact this p (List.mem_of_getElem? hk), nofun, nofun⟩

theorem rd_repX {x : ℚ} (h : x = rdX1 ∨ x = rdX2 ∨ x = rdX3) : IsRep x ∧ |x| ≤ 2 ^ 200 := by
  have e : (2 : ℚ) ^ (-35 : ℤ) = 1 / 2 ^ 35 := by rw [zpow_neg, one_div]; rfl
  rcases h with rfl | rfl | rfl
  · exact ⟨⟨5325762883013837, -35, by rw [e]; unfold rdX1; norm_num, by norm_num, by norm_num⟩, by decide +kernel⟩
  · exact ⟨⟨5326106480397517, -35, by rw [e]; unfold rdX2; norm_num, by norm_num, by norm_num⟩, by decide +kernel⟩
  · exact ⟨⟨5326450077781197, -35, by rw [e]; unfold rdX3; norm_num, by norm_num, by norm_num⟩, by decide +kernel⟩

theorem rd_repY {x : ℚ} (h : x = rdY1 ∨ x = rdY2) : IsRep x ∧ |x| ≤ 2 ^ 200 := by
  have e : (2 : ℚ) ^ (-34 : ℤ) = 1 / 2 ^ 34 := by rw [zpow_neg, one_div]; rfl
  rcases h with rfl | rfl
  · exact ⟨⟨7954284586152755, -34, by rw [e]; unfold rdY1; norm_num, by norm_num, by norm_num⟩, by decide +kernel⟩
  · exact ⟨⟨7954456384844595, -34, by rw [e]; unfold rdY2; norm_num, by norm_num, by norm_num⟩, by decide +kernel⟩

theorem rdCell1_plain : PlainRect rdCell1 :=
  ⟨rd_repX (by simp [rdCell1]), rd_repX (by simp [rdCell1]), rd_repY (by simp [rdCell1]), rd_repY (by simp [rdCell1]),
    by decide +kernel, by decide +kernel⟩

theorem rdCell2_plain : PlainRect rdCell2 :=
  ⟨rd_repX (by simp [rdCell2]), rd_repX (by simp [rdCell2]), rd_repY (by simp [rdCell2]), rd_repY (by simp [rdCell2]),
    by decide +kernel, by decide +kernel⟩

theorem rdCell1_rect : IsRect (facePts rdVerts (-1) [1, 0, 3, 4]) rdCell1 :=
  ⟨[⟨rdX2, rdY2⟩, ⟨rdX1, rdY2⟩, ⟨rdX1, rdY1⟩, ⟨rdX2, rdY1⟩], ⟨2, by decide +kernel⟩, Or.inr (by decide +kernel)⟩

theorem rdCell2_rect : IsRect (facePts rdVerts (-1) [4, 1, 2, 5]) rdCell2 :=
  ⟨[⟨rdX2, rdY2⟩, ⟨rdX2, rdY1⟩, ⟨rdX3, rdY1⟩, ⟨rdX3, rdY2⟩], ⟨1, by decide +kernel⟩, Or.inl (by decide +kernel)⟩

theorem rd_rects : ∀ r ∈ rdFaces.rows, ∃ c, IsRect (facePts rdVerts (-1) r) c ∧ PlainRect c := by
  intro r hr
  simp only [rdFaces, List.mem_cons, List.not_mem_nil, or_false] at hr
  rcases hr with rfl | rfl
  · exact ⟨_, rdCell1_rect, rdCell1_plain⟩
  · exact ⟨_, rdCell2_rect, rdCell2_plain⟩

theorem rd_rep : ∀ v ∈ rdVerts, Rep v.x ∧ Rep v.y := by
  have key : ∀ {x : ℚ}, IsRep x ∧ |x| ≤ 2 ^ 200 → Rep (fin x) := fun h => ⟨h.1, h.2.trans (pow_le_big (by norm_num))⟩
  intro v hv
  simp only [rdVerts, List.mem_cons, List.not_mem_nil, or_false] at hv
  rcases hv with rfl | rfl | rfl | rfl | rfl | rfl <;> exact ⟨key (rd_repX (by simp)), key (rd_repY (by simp))⟩

/-- A point of the common side, a point of the lower side of the first cell, a point of the second cell, and a point just below
it. -/
theorem rd_run : ∃ t, Makes Fl.env rdVerts rdFaces (-1) 4 2 t ∧
    t.locatePoints Fl.env [rndPt 155010.1 463005, rndPt 155010 463000.3, rndPt 155010.2 463004, rndPt 155010.2 463000.2] none
      [0, 1, 2, 3] = .ok [0, 0, 1, -1] := by
  obtain ⟨t, h1, h2⟩ := bind_eq_ok.1 (show (CellTree.init Fl.env rdVerts rdFaces (-1) 4 2 [0, 1] >>= fun t =>
      t.locatePoints Fl.env [rndPt 155010.1 463005, rndPt 155010 463000.3, rndPt 155010.2 463004, rndPt 155010.2 463000.2] none
        [0, 1, 2, 3]) = .ok [0, 0, 1, -1] by decide +kernel)
  exact ⟨t, ⟨_, by decide, h1⟩, h2⟩

end Celltree.Ex

namespace Celltree.Fl

/-- In this mesh, with the default tolerance, every point of the two cells is located, and the points of the second cell that are
more than `1e-10` from the first cell are located in the second cell. -/
example : ∃ t, Makes Fl.env Ex.rdVerts Ex.rdFaces (-1) 4 2 t ∧ ∀ p : Pt ℚ,
    ((InBox Ex.rdCell1 p ∨ InBox Ex.rdCell2 p) → ∃ v, t.locatePoints Fl.env [fp p] none [0] = .ok [v] ∧ v ≠ -1) ∧
    (InBox Ex.rdCell2 p → Ex.rdX2 + 1 / 10 ^ 10 ≤ p.x → t.locatePoints Fl.env [fp p] none [0] = .ok [1]) := by
  obtain ⟨t, h1, _⟩ := Ex.rd_run
  have hm := Ex.rd_good
  obtain ⟨tol, e1, e2, e3⟩ := C110_default_tolerance (S := 11) hm h1 (by norm_num) (by norm_num) (by
    intro r hr
    simp only [Ex.rdFaces, List.mem_cons, List.not_mem_nil, or_false] at hr
    rcases hr with rfl | rfl
    · exact ⟨_, Ex.rdCell1_rect, by decide +kernel, by decide +kernel, by decide +kernel, by decide +kernel⟩
    · exact ⟨_, Ex.rdCell2_rect, by decide +kernel, by decide +kernel, by decide +kernel, by decide +kernel⟩)
  have l1 : 1 / 2 ^ 200 ≤ tol := (inv_pow_le (by norm_num)).trans e2
  have e4 : tol ≤ 11 / 2 ^ 38 := e3.trans (by norm_num)
  have l2 : tol ≤ 2 ^ 200 := e4.trans (by norm_num)
  refine ⟨t, h1, fun p => ⟨fun hp => ?_, fun hp hx => ?_⟩⟩
  · have : ∃ res v, t.locatePoints Fl.env [fp p] none [0] = .ok res ∧ res[0]? = some v ∧ v ≠ -1 := by
      rcases hp with hp | hp
      · exact C110_points_found hm h1 Ex.rd_rep (points := [fp p]) (List.Perm.refl _) e1 l1 l2 (r := [1, 0, 3, 4])
          (by decide) Ex.rdCell1_rect Ex.rdCell1_plain rfl hp
      · exact C110_points_found hm h1 Ex.rd_rep (points := [fp p]) (List.Perm.refl _) e1 l1 l2 (r := [4, 1, 2, 5])
          (by decide) Ex.rdCell2_rect Ex.rdCell2_plain rfl hp
    obtain ⟨res, v, g1, g2, g3⟩ := this
    obtain ⟨res', g4, g5⟩ := C66_never_raises (points := [fp p]) hm h1 Ex.rd_rep (List.Perm.refl [0]) none
    rw [g1] at g4
    obtain rfl := Except.ok.inj g4
    obtain ⟨w, rfl⟩ := List.length_eq_one_iff.1 g5
    simp only [List.getElem?_cons_zero, Option.some.injEq] at g2
    subst g2
    exact ⟨w, g1, g3⟩
  · obtain ⟨res, g1, g2⟩ := C110_located_in hm h1 Ex.rd_rep (points := [fp p]) (List.Perm.refl [0]) e1 l1 l2 Ex.rd_rects
      (j := 1) (r := [4, 1, 2, 5]) rfl Ex.rdCell2_rect Ex.rdCell2_plain (i := 0) rfl hp (by
        intro k s d hk hs hd hnear
        have hk0 : k = 0 := by
          have := (List.getElem?_eq_some_iff.1 hs).1
          change k < 2 at this
          omega
        subst hk0
        obtain rfl := Option.some.inj hs
        obtain ⟨_, h3, _, _⟩ := hnear
        have hd' : d.xmax ≤ Ex.rdX2 := by
          obtain ⟨_, m2⟩ := rect_mem hd
          have : ∀ v ∈ facePts Ex.rdVerts (-1) [1, 0, 3, 4], v.x ≤ fin Ex.rdX2 := by decide +kernel
          exact (le_fin _ _).1 (this _ m2)
        have : (1 + 1 / 2 ^ 47) * tol ≤ (1 + 1 / 2 ^ 47) * (11 / 2 ^ 38) := mul_le_mul_of_nonneg_left e4 (by norm_num)
        norm_num at this hx h3
        linarith)
    obtain ⟨res', g4, g5⟩ := C66_never_raises (points := [fp p]) hm h1 Ex.rd_rep (List.Perm.refl [0]) none
    rw [g1] at g4
    obtain rfl := Except.ok.inj g4
    obtain ⟨w, rfl⟩ := List.length_eq_one_iff.1 g5
    simp only [List.getElem?_cons_zero, Option.some.injEq] at g2
    subst g2
    exact g1

end Celltree.Fl
