import Verif.Proofs.CyrusBeck

/-!
# Clipping to convex polygons when an end of the segment is within the tolerance
-/

set_option linter.unusedSectionVars false

namespace Celltree

section
variable {K : Type} [Field K] [LinearOrder K] [IsStrictOrderedRing K]

/-- A point near a side is close to a point of the side. -/
theorem Near.close {tol : K} (htol : 0 < tol) {p : Pt K} {s : Pt K × Pt K} (h : Near tol p s) :
    ∃ u, 0 ≤ u ∧ u ≤ 1 ∧ |p.x - (lineAt s.1 s.2 u).x| ≤ 2 * tol ∧ |p.y - (lineAt s.1 s.2 u).y| ≤ 2 * tol := by
  obtain ⟨⟨ax, ay⟩, ⟨bx, by'⟩⟩ := s
  obtain ⟨px, py⟩ := p
  obtain ⟨hne, hd, hx, hy⟩ := h
  unfold orient dist2 at hd
  unfold lineAt
  simp only [ne_eq, Pt.mk.injEq, not_and] at hne hd hx hy ⊢
  have key : ∀ {dx dy ex ey : K}, |dy| ≤ |dx| → dx ≠ 0 → (dx * ey - dy * ex) ^ 2 < tol ^ 2 * (dx ^ 2 + dy ^ 2) →
      |ey - ex / dx * dy| ≤ 2 * tol := by
    intro dx dy ex ey h1 h0 h2
    have hsq : dy ^ 2 ≤ dx ^ 2 := sq_le_sq.2 h1
    have hpos : 0 < dx ^ 2 := by positivity
    have e : (ey - ex / dx * dy) * dx = dx * ey - dy * ex := by field_simp
    have h3 : (ey - ex / dx * dy) ^ 2 * dx ^ 2 < (2 * tol) ^ 2 * dx ^ 2 := by
      rw [← mul_pow, e]
      nlinarith [mul_le_mul_of_nonneg_left hsq (sq_nonneg tol), mul_pos (sq_pos_of_pos htol) hpos]
    have h4 := lt_of_mul_lt_mul_right h3 hpos.le
    exact (abs_le_of_sq_le_sq' h4.le (by linarith)) |> fun h => abs_le.2 h
  by_cases hdom : |by' - ay| ≤ |bx - ax|
  · have hdx : bx - ax ≠ 0 := by
      intro h0
      rw [h0, abs_zero] at hdom
      have h1 := abs_eq_zero.1 (le_antisymm hdom (abs_nonneg _))
      exact hne (by linarith) (by linarith)
    obtain ⟨r1, r2⟩ := hx hdom
    refine ⟨(px - ax) / (bx - ax), ?_, ?_, ?_, ?_⟩
    · rcases lt_or_gt_of_ne hdx with h | h
      · rw [min_eq_right (by linarith)] at r1
        rw [max_eq_left (by linarith)] at r2
        exact div_nonneg_of_nonpos (by linarith) h.le
      · rw [min_eq_left (by linarith)] at r1
        exact div_nonneg (by linarith) h.le
    · rcases lt_or_gt_of_ne hdx with h | h
      · rw [min_eq_right (by linarith)] at r1
        rw [div_le_one_of_neg h]; linarith
      · rw [max_eq_right (by linarith)] at r2
        rw [div_le_one h]; linarith
    · rw [div_mul_cancel₀ _ hdx]
      rw [show px - (ax + (px - ax)) = 0 by ring, abs_zero]; linarith
    · have := key (ex := px - ax) (ey := py - ay) hdom hdx hd
      rwa [show py - (ay + (px - ax) / (bx - ax) * (by' - ay)) = py - ay - (px - ax) / (bx - ax) * (by' - ay) by ring]
  · have hdom' := not_le.1 hdom
    have hdy : by' - ay ≠ 0 := by
      intro h0
      rw [h0, abs_zero] at hdom'
      exact absurd hdom' (not_lt.2 (abs_nonneg _))
    obtain ⟨r1, r2⟩ := hy hdom'
    refine ⟨(py - ay) / (by' - ay), ?_, ?_, ?_, ?_⟩
    · rcases lt_or_gt_of_ne hdy with h | h
      · rw [max_eq_left (by linarith)] at r2
        exact div_nonneg_of_nonpos (by linarith) h.le
      · rw [min_eq_left (by linarith)] at r1
        exact div_nonneg (by linarith) h.le
    · rcases lt_or_gt_of_ne hdy with h | h
      · rw [min_eq_right (by linarith)] at r1
        rw [div_le_one_of_neg h]; linarith
      · rw [max_eq_right (by linarith)] at r2
        rw [div_le_one h]; linarith
    · have := key (dx := by' - ay) (dy := bx - ax) (ex := py - ay) (ey := px - ax) hdom'.le hdy (by
        rw [show ((by' - ay) * (px - ax) - (bx - ax) * (py - ay)) ^ 2 =
          ((bx - ax) * (py - ay) - (by' - ay) * (px - ax)) ^ 2 by ring, add_comm]
        exact hd)
      rwa [show px - (ax + (py - ay) / (by' - ay) * (bx - ax)) = px - ax - (py - ay) / (by' - ay) * (bx - ax) by ring]
    · rw [div_mul_cancel₀ _ hdy]
      rw [show py - (ay + (py - ay)) = 0 by ring, abs_zero]; linarith

theorem closeTo_of_mem {S : Pt K → Prop} {d : K} (hd : 0 ≤ d) {p : Pt K} (h : S p) : CloseTo d S p :=
  ⟨p, h, by rw [sub_self, abs_zero]; exact hd, by rw [sub_self, abs_zero]; exact hd⟩

/-- A convex polygon accepts only points that are close. -/
theorem ConvexPoly.accepts_close {l : List (Pt K)} (hl : ConvexPoly l) {tol : K} (htol : 0 < tol) {p : Pt K}
    (h : Accepts tol l p) : CloseTo (2 * tol) (InPoly l) p := by
  rcases h with ⟨s, hs, h⟩ | h
  · obtain ⟨u, h0, h1, h2, h3⟩ := h.close htol
    obtain ⟨m1, m2⟩ := mem_sides_mem (s := s) hs
    exact ⟨_, (hl.corner_inPoly m1).convex (hl.corner_inPoly m2) h0 h1, h2, h3⟩
  · exact closeTo_of_mem (by linarith) (hl.odd_inPoly h)

/-- The points close to a convex set form a convex set. -/
theorem CloseTo.convex {l : List (Pt K)} {d : K} {a b : Pt K} (ha : CloseTo d (InPoly l) a) (hb : CloseTo d (InPoly l) b)
    {u : K} (h0 : 0 ≤ u) (h1 : u ≤ 1) : CloseTo d (InPoly l) (lineAt a b u) := by
  obtain ⟨p, i1, x1, y1⟩ := ha
  obtain ⟨q, i2, x2, y2⟩ := hb
  have key : ∀ {x y z w : K}, |x - z| ≤ d → |y - w| ≤ d → |x + u * (y - x) - (z + u * (w - z))| ≤ d := by
    intro x y z w k1 k2
    rw [abs_le] at k1 k2 ⊢
    have h1' : 0 ≤ 1 - u := by linarith
    constructor
    · nlinarith [mul_le_mul_of_nonneg_left k1.1 h1', mul_le_mul_of_nonneg_left k2.1 h0]
    · nlinarith [mul_le_mul_of_nonneg_left k1.2 h1', mul_le_mul_of_nonneg_left k2.2 h0]
  exact ⟨lineAt p q u, i1.convex i2 h0 h1, key x1 x2, key y1 y2⟩

theorem ClipSpec.near {a b : Pt K} {S : Pt K → Prop} {d : K} (hd : 0 ≤ d) {r : Option (Pt K × Pt K)}
    (h : ClipSpec a b S r) : ClipNear d a b S r := by
  match r, h with
  | none, h => exact h
  | some (c, e), ⟨s, t, h0, h1, h2, h3, h4, h5⟩ =>
    exact ⟨s, t, h0, h1, h2, h3, h4, fun u hu hu' => (h5 u hu hu').1, fun u hu hu' =>
      closeTo_of_mem hd ((h5 u (by linarith) (by linarith)).2 ⟨hu, hu'⟩)⟩

/-- The line has the single point `t` in common with the polygon. -/
theorem cbFinish_near {l : List (Pt K)} {a b : Pt K} {d t : K} (hd : 0 ≤ d)
    (hS : ∀ u, InPoly l (lineAt a b u) ↔ t ≤ u ∧ u ≤ t) {aIn bIn : Bool} (ha : aIn = true → CloseTo d (InPoly l) a)
    (hb : bIn = true → CloseTo d (InPoly l) b) :
    ClipNear d a b (InPoly l) (cbFinish a b (toVector a b) aIn bIn t t) := by
  have hnone : ClipNear d a b (InPoly l) none := by
    intro u v _ huv _ h1 h2
    have := (hS u).1 h1
    have := (hS v).1 h2
    linarith [this.1, this.2]
  have ht : CloseTo d (InPoly l) (lineAt a b t) := closeTo_of_mem hd ((hS t).2 ⟨le_refl _, le_refl _⟩)
  -- a piece between two close points
  have piece : ∀ s r, CloseTo d (InPoly l) (lineAt a b s) → CloseTo d (InPoly l) (lineAt a b r) → s < r →
      ∀ u, s ≤ u → u ≤ r → CloseTo d (InPoly l) (lineAt a b u) := by
    intro s r h1 h2 h3 u h4 h5
    have hp : 0 < r - s := by linarith
    have := h1.convex h2 (u := (u - s) / (r - s)) (div_nonneg (by linarith) hp.le)
      (by rw [div_le_one hp]; linarith)
    rw [lineAt_lineAt, div_mul_cancel₀ _ hp.ne'] at this
    rwa [show s + (u - s) = u by ring] at this
  unfold cbFinish
  simp only [beq_self_eq_true, if_true, toPoint_eq]
  by_cases c1 : aIn = true ∧ t ≠ 0
  · have e1 : (aIn && !(t == 0)) = true := by simpa using c1
    have ha' : CloseTo d (InPoly l) (lineAt a b 0) := by rw [lineAt_zero]; exact ha c1.1
    simp only [e1, if_true]
    rcases lt_or_gt_of_ne c1.2 with h | h
    · simp only [if_pos h]
      have k1 : (decide (t ≥ 0) && decide (t < 1)) = false := by
        rw [Bool.and_eq_false_iff]; left; simpa using h
      have k2 : (decide ((0 : K) > 0) && decide ((0 : K) ≤ 1)) = false := by simp
      simp only [k1, k2, Bool.and_false, Bool.false_eq_true, if_false]
      exact hnone
    · simp only [if_neg (not_lt.2 h.le)]
      have k1 : (decide ((0 : K) ≥ 0) && decide ((0 : K) < 1)) = true := by simp
      by_cases h1 : t ≤ 1
      · have k2 : (decide (t > 0) && decide (t ≤ 1)) = true := by simp [h, h1]
        simp only [k1, k2, Bool.and_self, if_true]
        refine ⟨0, t, le_refl _, h, h1, rfl, rfl, fun u hu _ hi => ⟨hu, ((hS u).1 hi).2⟩, piece _ _ ha' ht h⟩
      · have k2 : (decide (t > 0) && decide (t ≤ 1)) = false := by simp [h1]
        simp only [k1, k2, Bool.and_false, Bool.false_eq_true, if_false, if_true]
        refine ⟨0, 1, le_refl _, zero_lt_one, le_refl _, rfl, (lineAt_one a b).symm, fun u hu hu' _ => ⟨hu, hu'⟩, ?_⟩
        intro u hu hu'
        exact piece _ _ ha' ht h u hu (by linarith)
  · have e1 : (aIn && !(t == 0)) = false := by
      rw [Bool.and_eq_false_iff]
      by_cases h : aIn = true
      · right
        have : t = 0 := by by_contra h0; exact c1 ⟨h, h0⟩
        simp [this]
      · left; simpa using h
    simp only [e1, Bool.false_eq_true, if_false]
    by_cases c2 : bIn = true ∧ t ≠ 1
    · have e2 : (bIn && !(t == 1)) = true := by simpa using c2
      have hb' : CloseTo d (InPoly l) (lineAt a b 1) := by rw [lineAt_one]; exact hb c2.1
      simp only [e2, if_true]
      rcases lt_or_gt_of_ne c2.2 with h | h
      · simp only [if_neg (not_lt.2 h.le)]
        have k2 : (decide ((1 : K) > 0) && decide ((1 : K) ≤ 1)) = true := by simp
        by_cases h1 : 0 ≤ t
        · have k1 : (decide (t ≥ 0) && decide (t < 1)) = true := by simp [h, h1]
          simp only [k1, k2, Bool.and_self, if_true]
          exact ⟨t, 1, h1, h, le_refl _, rfl, rfl, fun u _ hu hi => ⟨((hS u).1 hi).1, hu⟩, piece _ _ ht hb' h⟩
        · have k1 : (decide (t ≥ 0) && decide (t < 1)) = false := by simp [h1]
          simp only [k1, k2, Bool.false_and, Bool.false_eq_true, if_false, if_true]
          refine ⟨0, 1, le_refl _, zero_lt_one, le_refl _, (lineAt_zero a b).symm, rfl, fun u hu hu' _ => ⟨hu, hu'⟩, ?_⟩
          intro u hu hu'
          exact piece _ _ ht hb' h u (by linarith [not_le.1 h1]) hu'
      · simp only [if_pos h]
        have k1 : (decide ((1 : K) ≥ 0) && decide ((1 : K) < 1)) = false := by simp
        have k2 : (decide (t > 0) && decide (t ≤ 1)) = false := by
          rw [Bool.and_eq_false_iff]; right; simpa using h
        simp only [k1, k2, Bool.and_false, Bool.false_eq_true, if_false]
        exact hnone
    · have e2 : (bIn && !(t == 1)) = false := by
        rw [Bool.and_eq_false_iff]
        by_cases h : bIn = true
        · right
          have : t = 1 := by by_contra h0; exact c2 ⟨h, h0⟩
          simp [this]
        · left; simpa using h
      simp only [e2, Bool.false_eq_true, if_false]
      exact hnone

/-- The clip of a segment to a convex polygon, whatever its ends. -/
theorem cyrusBeck_near {l : List (Pt K)} (hl : ConvexPoly l) {a b : Pt K} {tol : K} (htol : 0 < tol) (hab : a ≠ b)
    (hcol : ∀ s ∈ sides l, orient a b s.1 = 0 → orient a b s.2 = 0 →
      s.1 ≠ s.2 ∧ ∀ v ∈ l, orient a b v = 0 → v = s.1 ∨ v = s.2)
    (ha : InPoly l a → Accepts tol l a) (hb : InPoly l b → Accepts tol l b) :
    ∃ r, cyrusBeck a b l tol = .ok r ∧ ClipNear (2 * tol) a b (InPoly l) r := by
  have hd : 0 ≤ 2 * tol := by linarith
  obtain ⟨ba, bb, ga, gb, r, h1, h2⟩ := cyrusBeck_cases (tol := tol) hl hab hcol
  refine ⟨r, h1, ?_⟩
  by_cases hin : (ba && bb) = true
  · rw [if_pos hin] at h2
    rw [h2]
    rw [Bool.and_eq_true] at hin
    have i1 := hl.accepts_close htol (ga.1 hin.1)
    have i2 := hl.accepts_close htol (gb.1 hin.2)
    exact ⟨0, 1, le_refl _, zero_lt_one, le_refl _, (lineAt_zero a b).symm, (lineAt_one a b).symm,
      fun u hu hu' _ => ⟨hu, hu'⟩, fun u hu hu' => i1.convex i2 hu hu'⟩
  · rw [if_neg hin] at h2
    rcases h2 with h2 | ⟨lo, hi, t0, t1, q2, q1, ht, rfl⟩
    · exact h2.near hd
    · rcases q2.lt_or_eq with hlt | rfl
      · apply ClipSpec.near hd
        apply cbFinish_proper hlt q1 ba bb _ ht
        rintro ⟨k1, k2⟩
        apply hin
        rw [Bool.and_eq_true]
        exact ⟨ga.2 (ha (by rw [← lineAt_zero a b]; exact (q1 0).2 ⟨k1, by linarith⟩)),
          gb.2 (hb (by rw [← lineAt_one a b]; exact (q1 1).2 ⟨by linarith, k2⟩))⟩
      · have e : t0 = lo ∧ t1 = lo := by
          rcases ht with h | h <;> simpa using h
        rw [e.1, e.2]
        exact cbFinish_near hd q1 (fun h => hl.accepts_close htol (ga.1 h)) fun h => hl.accepts_close htol (gb.1 h)

end
end Celltree
