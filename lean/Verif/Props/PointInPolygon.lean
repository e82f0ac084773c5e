import Verif.Props.Convex

/-!
# C64, C65: `point_in_polygon` and `points_in_triangles`
-/

set_option linter.unusedSectionVars false

namespace Celltree

section Exact
variable {K : Type} [Field K] [LinearOrder K] [IsStrictOrderedRing K]

theorem pipLoop_eq (p v0 : Pt K) (l : List (Pt K)) (c : Bool) :
    ∃ b, pointInPolygonLoop p v0 l c = .ok b ∧
      (b = true ↔ Odd ((if c then 1 else 0) + (pairs (v0 :: l)).countP fun s => decide (Crosses p s))) := by
  induction l generalizing v0 c with
  | nil =>
    refine ⟨c, rfl, ?_⟩
    cases c <;> simp [pairs]
  | cons v1 l ih =>
    unfold pointInPolygonLoop
    rw [rayCrosses_eq, ok_bind]
    obtain ⟨b, h1, h2⟩ := ih v1 (if decide (Crosses p (v0, v1)) = true then !c else c)
    refine ⟨b, h1, h2.trans ?_⟩
    simp only [pairs_cons_cons, List.countP_cons]
    by_cases hc : Crosses p (v0, v1)
    · simp only [hc, decide_true, if_true]
      cases c <;> simp only [Bool.not_false, Bool.not_true, if_true, Bool.false_eq_true, if_false] <;>
        simp only [Nat.odd_iff] <;> omega
    · simp [hc]

/-- **C64** (exact arithmetic): for every polygon with at least one corner, `point_in_polygon` returns (it does not divide by
zero), and it counts whether the ray to the right crosses an odd number of sides. -/
theorem C64_even_odd (p : Pt K) {poly : List (Pt K)} (hne : poly ≠ []) :
    ∃ b, pointInPolygon p poly = .ok b ∧ (b = true ↔ Odd ((sides poly).countP fun s => decide (Crosses p s))) := by
  cases poly with
  | nil => exact (hne rfl).elim
  | cons a l =>
    unfold pointInPolygon
    rw [rdI_last hne, ok_bind]
    obtain ⟨b, h1, h2⟩ := pipLoop_eq p ((a :: l).getLast hne) (a :: l) false
    refine ⟨b, h1, h2.trans ?_⟩
    rw [(sides_perm a l).countP_eq]
    simp only [Bool.false_eq_true, if_false, Nat.zero_add]

/-- **C64** (exact arithmetic): for a convex polygon, in either order, the answer is true for all points of the interior and
false for all points that are not in the closed polygon. -/
theorem C64_convex {l poly : List (Pt K)} (hl : ConvexPoly l) (hpoly : poly = l ∨ poly = l.reverse) (p : Pt K) :
    (InInterior l p → pointInPolygon p poly = .ok true) ∧ (¬ InPoly l p → pointInPolygon p poly = .ok false) := by
  have hne : poly ≠ [] := by
    rcases hpoly with rfl | rfl
    · exact hl.ne_nil
    · simpa using hl.ne_nil
  obtain ⟨b, h1, h2⟩ := C64_even_odd p hne
  have h3 : (b = true) ↔ Odd ((sides l).countP fun s => decide (Crosses p s)) := by
    rw [h2]
    rcases hpoly with rfl | rfl
    · rfl
    · have := accepts_reverse 0 p l
      unfold Accepts at this
      have h0 : ∀ l : List (Pt K), ¬ ∃ s ∈ sides l, Near 0 p s := fun l ⟨s, _, hs⟩ => not_near_zero p s hs
      simpa only [h0, false_or] using this
  refine ⟨fun hp => ?_, fun hp => ?_⟩
  · rw [h1, h3.2 (hl.interior_odd hp)]
  · cases b with
    | false => exact h1
    | true => exact (hp (hl.odd_inPoly (h3.1 rfl))).elim

/-- **C64** (exact arithmetic): every point is unambiguous. If a polygon (of any shape) is cut in two along the line between
two of its corners, a point in the polygon is in exactly one of the two pieces, and a point that is not in the polygon is in
both or in none: also if the point is on a side or on a corner. -/
theorem C64_cut (p a b : Pt K) (l l' : List (Pt K)) :
    ∃ c c1 c2, pointInPolygon p (a :: l ++ b :: l') = .ok c ∧ pointInPolygon p (a :: l ++ [b]) = .ok c1 ∧
      pointInPolygon p (b :: l' ++ [a]) = .ok c2 ∧ c = (c1 ^^ c2) := by
  obtain ⟨c, h, e⟩ := C64_even_odd p (poly := a :: l ++ b :: l') (by simp)
  obtain ⟨c1, h1, e1⟩ := C64_even_odd p (poly := a :: l ++ [b]) (by simp)
  obtain ⟨c2, h2, e2⟩ := C64_even_odd p (poly := b :: l' ++ [a]) (by simp)
  refine ⟨c, c1, c2, h, h1, h2, ?_⟩
  have s0 : sides (a :: l ++ b :: l') = pairs (a :: l ++ [b]) ++ pairs (b :: l' ++ [a]) := by
    have := pairs_append (a :: l) b (l' ++ [a])
    simpa [sides] using this
  have s1 : sides (a :: l ++ [b]) = pairs (a :: l ++ [b]) ++ [(b, a)] := by
    have := pairs_append (a :: l) b [a]
    simpa [sides, pairs] using this
  have s2 : sides (b :: l' ++ [a]) = pairs (b :: l' ++ [a]) ++ [(a, b)] := by
    have := pairs_append (b :: l') a [b]
    simpa [sides, pairs] using this
  rw [s0, List.countP_append] at e
  rw [s1, List.countP_append] at e1
  rw [s2, List.countP_append] at e2
  have hs : (List.countP (fun s => decide (Crosses p s)) [(b, a)]) = List.countP (fun s => decide (Crosses p s)) [(a, b)] := by
    simp only [List.countP_singleton, decide_eq_true_eq]
    rw [show ((b, a) : Pt K × Pt K) = (a, b).swap from rfl]
    simp only [crosses_swap]
  rw [hs] at e1
  generalize List.countP (fun s => decide (Crosses p s)) (pairs (a :: l ++ [b])) = n1 at *
  generalize List.countP (fun s => decide (Crosses p s)) (pairs (b :: l' ++ [a])) = n2 at *
  generalize List.countP (fun s => decide (Crosses p s)) [(a, b)] = n3 at *
  rw [Nat.odd_iff] at e e1 e2
  cases c <;> cases c1 <;> cases c2 <;> simp at e e1 e2 ⊢ <;> omega

/-- **C64**: `point_in_polygon` is the test used for the location of points, with tolerance zero. -/
theorem C64_tolerance_zero (p : Pt K) {poly : List (Pt K)} (hne : poly ≠ []) :
    pointInPolygon p poly = pointInPolygonOrOnEdge p poly 0 := by
  obtain ⟨b, h1, h2⟩ := C64_even_odd p hne
  obtain ⟨b', h3, h4⟩ := pointInPolygonOrOnEdge_eq p hne 0
  have h0 : ¬ ∃ s ∈ sides poly, Near 0 p s := fun ⟨s, _, hs⟩ => not_near_zero p s hs
  unfold Accepts at h4
  simp only [h0, false_or] at h4
  rw [h1, h3]
  congr 1
  exact Bool.eq_iff_iff.2 (h2.trans h4.symm)

/-- The three tests of `point_in_triangle` for nearness. -/
theorem triangle_near {a b c : Pt K} (h : orient a b c ≠ 0) (p : Pt K) (tol : K) :
    ((withinPerpendicularDistance (cross (toVector a b) (toVector a p)) (toVector a b) tol && inBounds p a b) ||
      (withinPerpendicularDistance (cross (toVector b c) (toVector b p)) (toVector b c) tol && inBounds p b c) ||
      (withinPerpendicularDistance (cross (toVector c a) (toVector c p)) (toVector c a) tol && inBounds p c a)) = true ↔
      ∃ s ∈ sides [a, b, c], Near tol p s := by
  have hab : a ≠ b := by rintro rfl; exact h (by unfold orient; ring)
  have hbc : b ≠ c := by rintro rfl; exact h (by unfold orient; ring)
  have hca : c ≠ a := by rintro rfl; exact h (by unfold orient; ring)
  have hx : ∀ u v : Pt K, cross (toVector u v) (toVector u p) = cross (toVector p u) (toVector p v) := by
    intro u v; unfold cross toVector; ring
  rw [Bool.or_eq_true, Bool.or_eq_true, hx, hx, hx, near_iff tol p a b hab, near_iff tol p b c hbc, near_iff tol p c a hca]
  simp [sides, pairs, or_assoc]

/-- **C65**, partial: what is missing are triangles of area zero. For all others, in either order, and a positive tolerance,
`point_in_triangle` accepts exactly the points of the closed triangle and the points near a side. -/
theorem C65_point_in_triangle_partial {a b c : Pt K} (h : orient a b c ≠ 0) (p : Pt K) {tol : K} (htol : 0 < tol) :
    pointInTriangle p ⟨a, b, c⟩ tol = true ↔
      InPoly [a, b, c] p ∨ InPoly [a, c, b] p ∨ ∃ s ∈ sides [a, b, c], Near tol p s := by
  have hA : cross (toVector a b) (toVector a p) = orient a b p := by unfold cross toVector orient; ring
  have hB : cross (toVector b c) (toVector b p) = orient b c p := by unfold cross toVector orient; ring
  have hC : cross (toVector c a) (toVector c p) = orient c a p := by unfold cross toVector orient; ring
  have hsum : orient a b p + orient b c p + orient c a p = orient a b c := by unfold orient; ring
  have hn := triangle_near h p tol
  have hin : InPoly [a, b, c] p ↔ 0 ≤ orient a b p ∧ 0 ≤ orient b c p ∧ 0 ≤ orient c a p := by
    simp [InPoly, sides, pairs]
  have hin' : InPoly [a, c, b] p ↔ orient a b p ≤ 0 ∧ orient b c p ≤ 0 ∧ orient c a p ≤ 0 := by
    simp only [InPoly, sides, pairs, List.cons_append, List.nil_append, List.mem_cons, List.not_mem_nil, or_false,
      forall_eq_or_imp, forall_eq, orient_swap c a, orient_swap b c, orient_swap a b, neg_nonneg]
    tauto
  unfold pointInTriangle
  simp only
  split
  · rename_i hs
    simp only [true_iff]
    rw [Bool.and_eq_true, beq_iff_eq, beq_iff_eq, hA, hB, hC, decide_eq_decide, decide_eq_decide, gt_iff_lt, gt_iff_lt,
      gt_iff_lt] at hs
    by_cases hp : 0 < orient a b p
    · left; rw [hin]; exact ⟨hp.le, (hs.1.1 hp).le, (hs.2.1 (hs.1.1 hp)).le⟩
    · right; left; rw [hin']
      have h2 : ¬ 0 < orient b c p := fun h' => hp (hs.1.2 h')
      have h3 : ¬ 0 < orient c a p := fun h' => h2 (hs.2.2 h')
      exact ⟨not_lt.1 hp, not_lt.1 h2, not_lt.1 h3⟩
  · rename_i hs
    rw [hn]
    refine ⟨fun h' => Or.inr (Or.inr h'), ?_⟩
    rintro (hp | hp | hp)
    · -- in the closed triangle, but not strictly inside: on a side
      have hconv : ConvexPoly [a, b, c] := by
        have hpos : 0 < orient a b c := by
          have := hin.1 hp
          exact lt_of_le_of_ne (by linarith [this.1, this.2.1, this.2.2]) h.symm
        have hsub : ∀ x y z, List.Sublist [x, y, z] [a, b, c] → x = a ∧ y = b ∧ z = c := by
          intro x y z hh
          have := hh.eq_of_length rfl
          simpa using this
        refine ⟨fun x y z hh => ?_, a, b, c, List.Sublist.refl _, hpos⟩
        obtain ⟨rfl, rfl, rfl⟩ := hsub x y z hh
        exact hpos.le
      have hni : ¬ InInterior [a, b, c] p := by
        intro hi
        apply hs
        have h1 := hi (a, b) (by simp [sides, pairs]) (by rintro ⟨⟩; exact h (by unfold orient; ring))
        have h2 := hi (b, c) (by simp [sides, pairs]) (by rintro ⟨⟩; exact h (by unfold orient; ring))
        have h3 := hi (c, a) (by simp [sides, pairs]) (by rintro ⟨⟩; exact h (by unfold orient; ring))
        simp only at h1 h2 h3
        rw [hA, hB, hC]
        simp [h1, h2, h3]
      obtain ⟨s, hs', hne, u, h0, h5, rfl⟩ := hconv.on_side hp hni
      exact ⟨s, hs', onSegment.near ⟨u, h0, h5, rfl, rfl⟩ hne htol⟩
    · exfalso
      apply hs
      have := hin'.1 hp
      rw [hA, hB, hC]
      simp [not_lt.2 this.1, not_lt.2 this.2.1, not_lt.2 this.2.2]
    · exact hp

/-- **C65**, partial, for `points_in_triangles`: on valid face indices and triangles of positive area, the answer for every
point is whether it is in the closed triangle with its index, or near one of its sides. -/
theorem C65_points_in_triangles_partial {points : List (Pt K)} {faceIndices : List Int} {faces : List (List Int)}
    {vertices : List (Pt K)} {tol : K} (htol : 0 < tol)
    (tri : Nat → Triangle K)
    (htri : ∀ i < points.length, ∃ (j : Nat) (a b c : Nat), faceIndices[i]? = some (j : Int) ∧
      faces[j]? = some [(a : Int), (b : Int), (c : Int)] ∧ vertices[a]? = some (tri i).a ∧ vertices[b]? = some (tri i).b ∧
      vertices[c]? = some (tri i).c ∧ orient (tri i).a (tri i).b (tri i).c ≠ 0)
    {sched : List Nat} (hs : sched.Perm (List.range points.length)) :
    ∃ res, pointsInTriangles points faceIndices faces vertices tol sched = .ok res ∧ res.length = points.length ∧
      ∀ i p, points[i]? = some p → (res[i]? = some true ↔ InPoly [(tri i).a, (tri i).b, (tri i).c] p ∨
        InPoly [(tri i).a, (tri i).c, (tri i).b] p ∨ ∃ s ∈ sides [(tri i).a, (tri i).b, (tri i).c], Near tol p s) := by
  have hbody : ∀ i (h : i < points.length), (do
      let faceIndex ← rd faceIndices i
      let face ← rdI faces faceIndex
      let triangle ← asTriangle vertices face
      let point ← rd points i
      .ok (pointInTriangle point triangle tol) : M Bool) = .ok (pointInTriangle points[i] (tri i) tol) := by
    intro i h
    obtain ⟨j, a, b, c, h1, h2, h3, h4, h5, _⟩ := htri i h
    have hrdI : ∀ {α : Type} {l : List α} {k : Nat} {v : α}, l[k]? = some v → rdI l (k : Int) = .ok v := by
      intro α l k v hv
      unfold rdI wrapIdx
      rw [if_neg (by omega : ¬ ((k : Int) < 0)), if_neg (by omega), Int.toNat_natCast]
      unfold rd
      rw [hv]
    have hrd : ∀ {α : Type} {l : List α} {k : Nat} {v : α}, l[k]? = some v → rd l k = .ok v := by
      intro α l k v hv
      unfold rd
      rw [hv]
    rw [hrd h1, ok_bind, hrdI h2, ok_bind]
    unfold asTriangle
    rw [hrd (show [(a : Int), b, c][0]? = some (a : Int) from rfl), ok_bind, hrdI h3, ok_bind,
      hrd (show [(a : Int), b, c][1]? = some (b : Int) from rfl), ok_bind, hrdI h4, ok_bind,
      hrd (show [(a : Int), b, c][2]? = some (c : Int) from rfl), ok_bind, hrdI h5, ok_bind, ok_bind,
      hrd (List.getElem?_eq_getElem h), ok_bind]
  obtain ⟨res, h1⟩ : ∃ res, pointsInTriangles points faceIndices faces vertices tol sched = .ok res :=
    ⟨_, prange_ok hs false (f := fun i => if h : i < points.length then pointInTriangle points[i] (tri i) tol else false)
      (fun i hi => by rw [hbody i hi]; simp [hi])⟩
  obtain ⟨h2, h3⟩ := (prange_eq_ok hs false).1 h1
  refine ⟨res, h1, h2, ?_⟩
  intro i p hp
  obtain ⟨hi, rfl⟩ := List.getElem?_eq_some_iff.1 hp
  have h4 := h3 i (by omega)
  rw [hbody i hi] at h4
  have h4 := Except.ok.inj h4
  obtain ⟨j, a, b, c, _, _, _, _, _, ho⟩ := htri i hi
  rw [List.getElem?_eq_getElem (by omega : i < res.length), ← h4, Option.some_inj]
  exact C65_point_in_triangle_partial ho points[i] htol

end Exact

/-- **C65** is violated for triangles of area zero: they accept all points of the line, however far away. -/
theorem C65_degenerate_violated :
    pointsInTriangles [(⟨.fin 1000, .fin 1000⟩ : Pt Fl)] [0] [[0, 1, 2]]
      [⟨.fin 0, .fin 0⟩, ⟨.fin 1, .fin 1⟩, ⟨.fin 2, .fin 2⟩] (.fin (1 / 1000000)) [0] = .ok [true] := by
  decide +kernel

/-! ## The hypotheses can be met -/

/-- A square: points inside, on the left side, on the right side and outside; the square cut along a diagonal, and a point
on it. -/
example : let q (x y : ℚ) : Pt ℚ := ⟨x, y⟩
    pointInPolygon (q 1 1) [q 0 0, q 2 0, q 2 2, q 0 2] = .ok true ∧
    pointInPolygon (q 0 1) [q 0 0, q 2 0, q 2 2, q 0 2] = .ok true ∧
    pointInPolygon (q 2 1) [q 0 0, q 2 0, q 2 2, q 0 2] = .ok false ∧
    pointInPolygon (q 3 1) [q 0 0, q 2 0, q 2 2, q 0 2] = .ok false ∧
    pointInPolygon (q 1 1) [q 0 0, q 2 0, q 2 2] = .ok true ∧
    pointInPolygon (q 1 1) [q 2 2, q 0 2, q 0 0] = .ok false := by
  decide +kernel

/-- Two triangles, the second clockwise. -/
example : pointsInTriangles [(⟨1, 1 / 2⟩ : Pt ℚ), ⟨1, 1⟩, ⟨5, 5⟩] [0, 1, 1] [[0, 1, 2], [0, 2, 1]]
    [⟨0, 0⟩, ⟨2, 0⟩, ⟨0, 2⟩] (1 / 1000) [2, 0, 1] = .ok [true, true, false] := by
  decide +kernel

end Celltree
