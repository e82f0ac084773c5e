import Verif.Proofs.FaceEdges

/-!
# `lines_intersect` in exact arithmetic
-/

set_option linter.unusedSectionVars false

namespace Celltree

variable {K : Type} [Field K] [LinearOrder K] [IsStrictOrderedRing K]

/-- The tolerance used for a tree edge from `p` to `q`. -/
def lineTol (env : Env K) (p q : Pt K) : K := max env.minTol (env.tolFactor * max |q.x - p.x| |q.y - p.y|)

/-- Each segment has an end on the left of the other, and an end that is not. -/
def Straddles (a b p q : Pt K) : Prop :=
  ¬ (0 < orient p q a ↔ 0 < orient p q b) ∧ ¬ (0 < orient a b p ↔ 0 < orient a b q)

instance (a b p q : Pt K) : Decidable (Straddles a b p q) := by unfold Straddles; infer_instance

/-- The intervals of the coordinates are less than `tol` apart. -/
def Overlap (tol a b p q : K) : Prop := min a b - max p q < tol ∧ min p q - max a b < tol

instance (tol a b p q : K) : Decidable (Overlap tol a b p q) := by unfold Overlap; infer_instance

/-- The tests that come first. -/
def LineGuard (tol : K) (a b p q : Pt K) : Prop :=
  a ≠ b ∧ p ≠ q ∧ (p.x = q.x → a.x = b.x → a.x = p.x) ∧ (p.y = q.y → a.y = b.y → a.y = p.y) ∧
    Overlap tol a.x b.x p.x q.x ∧ Overlap tol a.y b.y p.y q.y

instance (tol : K) (a b p q : Pt K) : Decidable (LineGuard tol a b p q) := by unfold LineGuard; infer_instance

/-- The parameter of the crossing on the line through `a` and `b`. -/
def crossAt (a b p q : Pt K) : K := orient p q a / (orient p q a - orient p q b)

theorem orient_diff (a b p q : Pt K) : orient a b p - orient a b q = -(orient p q a - orient p q b) := by
  unfold orient; ring

theorem leftOf_eq (a p q : Pt K) : leftOf a p (toVector p q) = decide (0 < orient p q a) := by
  unfold leftOf toVector orient
  simp only [gt_iff_lt]
  rw [decide_eq_decide]
  constructor <;> intro h <;> linarith

theorem hasOverlap_eq (a b p q tol : K) : hasOverlap a b p q tol = decide (Overlap tol a b p q) := by
  unfold hasOverlap
  rw [fmin_eq, fmax_eq, fmin_eq, fmax_eq, Bool.eq_iff_iff, decide_eq_true_iff]
  unfold Overlap
  simp

theorem toVector_x_zero (a b : Pt K) : (toVector a b).x = 0 ↔ a.x = b.x :=
  sub_eq_zero.trans eq_comm

theorem toVector_y_zero (a b : Pt K) : (toVector a b).y = 0 ↔ a.y = b.y :=
  sub_eq_zero.trans eq_comm

theorem dist2_pos {a b : Pt K} (h : a ≠ b) : 0 < dist2 a b := by
  unfold dist2
  rcases lt_or_eq_of_le (add_nonneg (sq_nonneg (b.x - a.x)) (sq_nonneg (b.y - a.y))) with h' | h'
  · exact h'
  · exfalso
    apply h
    have h1 : (b.x - a.x) ^ 2 = 0 := by nlinarith [sq_nonneg (b.x - a.x), sq_nonneg (b.y - a.y)]
    have h2 : (b.y - a.y) ^ 2 = 0 := by nlinarith [sq_nonneg (b.x - a.x), sq_nonneg (b.y - a.y)]
    have h1 := pow_eq_zero_iff (two_ne_zero) |>.1 h1
    have h2 := pow_eq_zero_iff (two_ne_zero) |>.1 h2
    exact Pt.ext' (by linarith) (by linarith)

theorem within_dist2 (c : K) (a b : Pt K) (tol : K) :
    withinPerpendicularDistance c (toVector a b) tol = decide (c ^ 2 < tol ^ 2 * dist2 a b) := by
  rw [within_eq]; rfl

/-- What `lines_intersect` computes. -/
theorem linesIntersect_eq {env : Env K} (hmin : 0 < env.minTol) (a b p q : Pt K) :
    linesIntersect env a b p q = .ok (
      if LineGuard (lineTol env p q) a b p q then
        if Straddles a b p q then
          (true, if (orient p q a - orient p q b) ^ 2 < lineTol env p q ^ 2 * dist2 a b then none
            else some (lineAt a b (crossAt a b p q)))
        else if NearLine (lineTol env p q) a b p ∧ NearLine (lineTol env p q) a b q then
          (true, midpointCollinearLines a b p q)
        else (false, none)
      else (false, none)) := by
  have htol : 0 < lineTol env p q := lt_max_of_lt_left hmin
  have hpq : (p = q ↔ p.x = q.x ∧ p.y = q.y) := ⟨fun h => h ▸ ⟨rfl, rfl⟩, fun h => Pt.ext' h.1 h.2⟩
  have hab : (a = b ↔ a.x = b.x ∧ a.y = b.y) := ⟨fun h => h ▸ ⟨rfl, rfl⟩, fun h => Pt.ext' h.1 h.2⟩
  have hbeq : ∀ x y : K, (x == y) = decide (x = y) := fun x y => by
    rw [Bool.eq_iff_iff]; simp
  unfold linesIntersect
  simp only [hbeq, toVector_x_zero, toVector_y_zero]
  have e0 : fmax env.minTol (env.tolFactor * fmax (fabs (toVector p q).x) (fabs (toVector p q).y)) = lineTol env p q := by
    rw [fmax_eq, fmax_eq, fabs_eq, fabs_eq]; rfl
  rw [e0]
  simp only [hasOverlap_eq, leftOf_eq, within_dist2, cross_orient]
  by_cases h1 : p = q
  · have : ¬ LineGuard (lineTol env p q) a b p q := fun h => h.2.1 h1
    rw [if_neg this, if_pos (by simp [h1])]
  by_cases h2 : a = b
  · have : ¬ LineGuard (lineTol env p q) a b p q := fun h => h.1 h2
    rw [if_neg this, if_pos (by simp [h2])]
  rw [if_neg (by simp only [Bool.or_eq_true, Bool.and_eq_true, decide_eq_true_eq, ← hpq, ← hab]; tauto)]
  by_cases h3 : p.x = q.x → a.x = b.x → a.x = p.x
  swap
  · have : ¬ LineGuard (lineTol env p q) a b p q := fun h => h3 h.2.2.1
    rw [if_neg this, if_pos (by simp only [Bool.and_eq_true, decide_eq_true_eq, Bool.not_eq_true', decide_eq_false_iff_not]; tauto)]
  rw [if_neg (by simp only [Bool.and_eq_true, decide_eq_true_eq, Bool.not_eq_true', decide_eq_false_iff_not]; tauto)]
  by_cases h4 : p.y = q.y → a.y = b.y → a.y = p.y
  swap
  · have : ¬ LineGuard (lineTol env p q) a b p q := fun h => h4 h.2.2.2.1
    rw [if_neg this, if_pos (by simp only [Bool.and_eq_true, decide_eq_true_eq, Bool.not_eq_true', decide_eq_false_iff_not]; tauto)]
  rw [if_neg (by simp only [Bool.and_eq_true, decide_eq_true_eq, Bool.not_eq_true', decide_eq_false_iff_not]; tauto)]
  by_cases h5 : Overlap (lineTol env p q) a.x b.x p.x q.x ∧ Overlap (lineTol env p q) a.y b.y p.y q.y
  swap
  · have : ¬ LineGuard (lineTol env p q) a b p q := fun h => h5 h.2.2.2.2
    rw [if_neg this, if_pos (by simp only [Bool.or_eq_true, Bool.not_eq_true', decide_eq_false_iff_not]; tauto)]
  rw [if_neg (by simp only [Bool.or_eq_true, Bool.not_eq_true', decide_eq_false_iff_not]; tauto)]
  rw [if_pos (show LineGuard (lineTol env p q) a b p q from ⟨h2, h1, h3, h4, h5⟩)]
  have hst : (decide (0 < orient p q a) != decide (0 < orient p q b) &&
      decide (0 < orient a b p) != decide (0 < orient a b q)) = true ↔ Straddles a b p q := by
    unfold Straddles
    simp only [Bool.and_eq_true, bne_iff_ne, ne_eq, decide_eq_decide]
  by_cases h6 : Straddles a b p q
  · rw [if_pos (hst.2 h6), if_pos h6]
    unfold intersectionLocationPoint
    simp only [within_dist2]
    have e1 : cross (toVector a b) (toVector p q) = orient p q a - orient p q b := by
      unfold cross toVector orient; ring
    have e2 : cross (toVector a p) (toVector p q) = orient p q a := by unfold cross toVector orient; ring
    rw [e1, e2]
    by_cases h7 : (orient p q a - orient p q b) ^ 2 < lineTol env p q ^ 2 * dist2 a b
    · rw [if_pos (by simpa using h7), if_pos h7]
      rfl
    · rw [if_neg (by simpa using h7), if_neg h7]
      have hd : orient p q a - orient p q b ≠ 0 := by
        intro h0
        rw [h0] at h7
        apply h7
        have := dist2_pos h2
        rw [zero_pow two_ne_zero]
        positivity
      rw [fdiv_eq hd]
      rfl
  · rw [if_neg ((not_congr hst).2 h6), if_neg h6]
    by_cases h7 : NearLine (lineTol env p q) a b p ∧ NearLine (lineTol env p q) a b q
    · rw [if_pos h7, if_pos (by unfold NearLine at h7; simpa using h7)]
    · rw [if_neg h7, if_neg (by unfold NearLine at h7; simpa using h7)]

/-! ## Crossings -/

theorem ratio_unit {x y : K} (h : ¬ (0 < x ↔ 0 < y)) : 0 ≤ x / (x - y) ∧ x / (x - y) ≤ 1 ∧ x - y ≠ 0 := by
  by_cases hx : 0 < x
  · have hy : y ≤ 0 := by by_contra h'; exact h ⟨fun _ => not_le.1 h', fun _ => hx⟩
    have hd : 0 < x - y := by linarith
    exact ⟨div_nonneg hx.le hd.le, (div_le_one hd).2 (by linarith), hd.ne'⟩
  · have hy : 0 < y := by by_contra h'; exact h ⟨fun h => (hx h).elim, fun h => (h' h).elim⟩
    have hx' := not_lt.1 hx
    have hd : x - y < 0 := by linarith
    exact ⟨div_nonneg_of_nonpos hx' hd.le, (div_le_one_of_neg hd).2 (by linarith), hd.ne⟩

/-- The computed location is on both segments. -/
theorem straddles_share {a b p q : Pt K} (h : Straddles a b p q) : ShareAt a b p q (lineAt a b (crossAt a b p q)) := by
  obtain ⟨u0, u1, hd⟩ := ratio_unit h.1
  obtain ⟨v0, v1, hd'⟩ := ratio_unit h.2
  refine ⟨crossAt a b p q, orient a b p / (orient a b p - orient a b q), u0, u1, v0, v1, rfl, ?_⟩
  have hD : orient a b p - orient a b q = -(orient p q a - orient p q b) := orient_diff a b p q
  unfold crossAt
  rw [hD]
  apply Pt.ext'
  · simp only [lineAt]
    field_simp
    unfold orient
    ring
  · simp only [lineAt]
    field_simp
    unfold orient
    ring

theorem ProperCross.straddles {a b p q : Pt K} (h : ProperCross a b p q) : Straddles a b p q := by
  have key : ∀ x y : K, x * y < 0 → ¬ (0 < x ↔ 0 < y) := by
    intro x y hxy h
    rcases mul_neg_iff.1 hxy with ⟨h1, h2⟩ | ⟨h1, h2⟩
    · exact absurd (h.1 h1) h2.not_gt
    · exact absurd (h.2 h2) h1.not_gt
  exact ⟨key _ _ h.1, key _ _ h.2⟩

theorem between_min_max (x y u : K) (h0 : 0 ≤ u) (h1 : u ≤ 1) : min x y ≤ x + u * (y - x) ∧ x + u * (y - x) ≤ max x y :=
  ⟨min_le_lineAt x y u h0 h1, lineAt_le_max x y u h0 h1⟩

theorem ShareAt.overlap {a b p q c : Pt K} (h : ShareAt a b p q c) {tol : K} (htol : 0 < tol) :
    Overlap tol a.x b.x p.x q.x ∧ Overlap tol a.y b.y p.y q.y := by
  obtain ⟨u, v, u0, u1, v0, v1, h1, h2⟩ := h
  have e := h1.symm.trans h2
  have ex : a.x + u * (b.x - a.x) = p.x + v * (q.x - p.x) := congrArg Pt.x e
  have ey : a.y + u * (b.y - a.y) = p.y + v * (q.y - p.y) := congrArg Pt.y e
  obtain ⟨g1, g2⟩ := between_min_max a.x b.x u u0 u1
  obtain ⟨g3, g4⟩ := between_min_max p.x q.x v v0 v1
  obtain ⟨g5, g6⟩ := between_min_max a.y b.y u u0 u1
  obtain ⟨g7, g8⟩ := between_min_max p.y q.y v v0 v1
  exact ⟨⟨by linarith, by linarith⟩, ⟨by linarith, by linarith⟩⟩

theorem ProperCross.guard {a b p q : Pt K} (h : ProperCross a b p q) {tol : K} (htol : 0 < tol) :
    LineGuard tol a b p q := by
  have hs := (straddles_share h.straddles).overlap htol
  obtain ⟨h1, h2⟩ := h
  refine ⟨?_, ?_, ?_, ?_, hs⟩
  · rintro rfl
    exact absurd h1 (not_lt.2 (mul_self_nonneg _))
  · rintro rfl
    exact absurd h2 (not_lt.2 (mul_self_nonneg _))
  · intro e1 e2
    by_contra hne
    have : orient p q a * orient p q b = ((q.y - p.y) * (a.x - p.x)) ^ 2 := by
      unfold orient; rw [← e1, ← e2]; ring
    rw [this] at h1
    exact absurd h1 (not_lt.2 (sq_nonneg _))
  · intro e1 e2
    by_contra hne
    have : orient p q a * orient p q b = ((q.x - p.x) * (a.y - p.y)) ^ 2 := by
      unfold orient; rw [← e1, ← e2]; ring
    rw [this] at h1
    exact absurd h1 (not_lt.2 (sq_nonneg _))

/-! ## Segments on nearly the same line -/

/-- One coordinate: the point of the segment `a`, `a + v` with parameter `u`, where `u` depends only on the positions `s`,
`s'` of the ends of the other segment. -/
theorem wide_coord {tol a v p q s s' ε ε' u : K} (hp : p = a + s * v + ε) (hq : q = a + s' * v + ε')
    (e1 : |ε| < tol) (e2 : |ε'| < tol) (ho : Overlap tol a (a + v) p q)
    (hu : (u = s ∧ 0 ≤ s ∧ s ≤ 1) ∨ (u = s' ∧ 0 ≤ s' ∧ s' ≤ 1) ∨ (u = 1 ∧ 1 ≤ s ∧ 1 ≤ s') ∨ (u = 0 ∧ s ≤ 0 ∧ s' ≤ 0) ∨
      (u = 0 ∧ s ≤ 0 ∧ 0 ≤ s') ∨ (u = 0 ∧ 0 ≤ s ∧ s' ≤ 0)) :
    min p q - tol < a + u * v ∧ a + u * v < max p q + tol := by
  obtain ⟨o1, o2⟩ := ho
  obtain ⟨a1, a2⟩ := abs_lt.1 e1
  obtain ⟨a3, a4⟩ := abs_lt.1 e2
  have m1 := min_le_left p q
  have m2 := min_le_right p q
  have m3 := le_max_left p q
  have m4 := le_max_right p q
  rcases hu with ⟨rfl, _, _⟩ | ⟨rfl, _, _⟩ | ⟨rfl, h1, h2⟩ | ⟨rfl, h1, h2⟩ | ⟨rfl, h1, h2⟩ | ⟨rfl, h1, h2⟩
  · exact ⟨by linarith, by linarith⟩
  · exact ⟨by linarith, by linarith⟩
  · rcases le_total 0 v with hv | hv
    · rw [max_eq_right (show a ≤ a + v by linarith)] at o2
      have := mul_nonneg (sub_nonneg.2 h1) hv
      exact ⟨by linarith, by linarith⟩
    · rw [min_eq_right (show a + v ≤ a by linarith)] at o1
      have := mul_nonneg (sub_nonneg.2 h1) (neg_nonneg.2 hv)
      exact ⟨by linarith, by linarith⟩
  · rcases le_total 0 v with hv | hv
    · have := mul_nonneg (neg_nonneg.2 h1) hv
      rw [min_eq_left (show a ≤ a + v by linarith)] at o1
      exact ⟨by linarith, by linarith⟩
    · have := mul_nonneg (neg_nonneg.2 h1) (neg_nonneg.2 hv)
      rw [max_eq_left (show a + v ≤ a by linarith)] at o2
      exact ⟨by linarith, by linarith⟩
  · rcases le_total 0 v with hv | hv
    · have := mul_nonneg (neg_nonneg.2 h1) hv
      have := mul_nonneg h2 hv
      exact ⟨by linarith, by linarith⟩
    · have := mul_nonneg (neg_nonneg.2 h1) (neg_nonneg.2 hv)
      have := mul_nonneg h2 (neg_nonneg.2 hv)
      exact ⟨by linarith, by linarith⟩
  · rcases le_total 0 v with hv | hv
    · have := mul_nonneg h1 hv
      have := mul_nonneg (neg_nonneg.2 h2) hv
      exact ⟨by linarith, by linarith⟩
    · have := mul_nonneg h1 (neg_nonneg.2 hv)
      have := mul_nonneg (neg_nonneg.2 h2) (neg_nonneg.2 hv)
      exact ⟨by linarith, by linarith⟩

/-- A point near the line, in coordinates along the line. -/
theorem NearLine.coords {tol : K} {a b p : Pt K} (hab : a ≠ b) (htol : 0 < tol) (h : NearLine tol a b p) :
    ∃ s εx εy, p.x = a.x + s * (b.x - a.x) + εx ∧ p.y = a.y + s * (b.y - a.y) + εy ∧ |εx| < tol ∧ |εy| < tol := by
  have hN := dist2_pos hab
  unfold NearLine at h
  have habs : ∀ w : K, w ^ 2 ≤ dist2 a b → |orient a b p * w / dist2 a b| < tol := by
    intro w hw
    rw [abs_div, abs_of_pos hN, div_lt_iff₀ hN]
    apply abs_lt_of_sq_lt_sq _ (by positivity)
    calc (orient a b p * w) ^ 2 = orient a b p ^ 2 * w ^ 2 := by ring
      _ ≤ orient a b p ^ 2 * dist2 a b := mul_le_mul_of_nonneg_left hw (sq_nonneg _)
      _ < tol ^ 2 * dist2 a b * dist2 a b := mul_lt_mul_of_pos_right h hN
      _ = (tol * dist2 a b) ^ 2 := by ring
  refine ⟨((p.x - a.x) * (b.x - a.x) + (p.y - a.y) * (b.y - a.y)) / dist2 a b,
    orient a b p * (-(b.y - a.y)) / dist2 a b, orient a b p * (b.x - a.x) / dist2 a b, ?_, ?_, habs _ ?_, habs _ ?_⟩
  · field_simp
    unfold dist2 orient
    ring
  · field_simp
    unfold dist2 orient
    ring
  · unfold dist2; nlinarith [sq_nonneg (b.x - a.x)]
  · unfold dist2; nlinarith [sq_nonneg (b.y - a.y)]

/-- Whatever is reported, the query segment comes close to the tree edge. -/
theorem near_wide {tol : K} {a b p q : Pt K} (htol : 0 < tol) (hg : LineGuard tol a b p q)
    (h : Straddles a b p q ∨ (NearLine tol a b p ∧ NearLine tol a b q)) :
    ∃ u, 0 ≤ u ∧ u ≤ 1 ∧ InWideBox tol p q (lineAt a b u) := by
  rcases h with h | ⟨hp, hq⟩
  · obtain ⟨u, v, u0, u1, v0, v1, h1, h2⟩ := straddles_share h
    refine ⟨u, u0, u1, ?_⟩
    rw [← h1, h2]
    obtain ⟨g3, g4⟩ := between_min_max p.x q.x v v0 v1
    obtain ⟨g7, g8⟩ := between_min_max p.y q.y v v0 v1
    simp only [InWideBox, lineAt]
    exact ⟨⟨by linarith, by linarith⟩, ⟨by linarith, by linarith⟩⟩
  · obtain ⟨hab, _, _, _, ox, oy⟩ := hg
    obtain ⟨s, εx, εy, p1, p2, p3, p4⟩ := hp.coords hab htol
    obtain ⟨s', εx', εy', q1, q2, q3, q4⟩ := hq.coords hab htol
    have hu : ∃ u, 0 ≤ u ∧ u ≤ 1 ∧ ((u = s ∧ 0 ≤ s ∧ s ≤ 1) ∨ (u = s' ∧ 0 ≤ s' ∧ s' ≤ 1) ∨ (u = 1 ∧ 1 ≤ s ∧ 1 ≤ s') ∨
        (u = 0 ∧ s ≤ 0 ∧ s' ≤ 0) ∨ (u = 0 ∧ s ≤ 0 ∧ 0 ≤ s') ∨ (u = 0 ∧ 0 ≤ s ∧ s' ≤ 0)) := by
      by_cases h1 : 0 ≤ s
      · by_cases h2 : s ≤ 1
        · exact ⟨s, h1, h2, Or.inl ⟨rfl, h1, h2⟩⟩
        · by_cases h3 : 0 ≤ s'
          · by_cases h4 : s' ≤ 1
            · exact ⟨s', h3, h4, Or.inr (Or.inl ⟨rfl, h3, h4⟩)⟩
            · exact ⟨1, zero_le_one, le_refl _, Or.inr (Or.inr (Or.inl ⟨rfl, (not_le.1 h2).le, (not_le.1 h4).le⟩))⟩
          · exact ⟨0, le_refl _, zero_le_one, Or.inr (Or.inr (Or.inr (Or.inr (Or.inr ⟨rfl, h1, (not_le.1 h3).le⟩))))⟩
      · by_cases h3 : 0 ≤ s'
        · exact ⟨0, le_refl _, zero_le_one, Or.inr (Or.inr (Or.inr (Or.inr (Or.inl ⟨rfl, (not_le.1 h1).le, h3⟩))))⟩
        · exact ⟨0, le_refl _, zero_le_one, Or.inr (Or.inr (Or.inr (Or.inl ⟨rfl, (not_le.1 h1).le, (not_le.1 h3).le⟩)))⟩
    obtain ⟨u, u0, u1, hu⟩ := hu
    refine ⟨u, u0, u1, ?_, ?_⟩
    · exact wide_coord p1 q1 p3 q3 (by rw [add_sub_cancel]; exact ox) hu
    · exact wide_coord p2 q2 p4 q4 (by rw [add_sub_cancel]; exact oy) hu

/-- A segment of positive length with a point strictly in a box shares a piece with the box. -/
theorem SharesPiece.of_strict {a b : Pt K} (hab : a ≠ b) {box : Box K} {u : K} (u0 : 0 ≤ u) (u1 : u ≤ 1)
    (h1 : box.xmin < (lineAt a b u).x) (h2 : (lineAt a b u).x < box.xmax) (h3 : box.ymin < (lineAt a b u).y)
    (h4 : (lineAt a b u).y < box.ymax) : SharesPiece a b (InBox box) := by
  have hN : 0 < |b.x - a.x| + |b.y - a.y| := by
    by_contra h
    apply hab
    have e1 := abs_nonneg (b.x - a.x)
    have e2 := abs_nonneg (b.y - a.y)
    have z1 : |b.x - a.x| = 0 := by linarith
    have z2 : |b.y - a.y| = 0 := by linarith
    exact Pt.ext' (by linarith [abs_eq_zero.1 z1]) (by linarith [abs_eq_zero.1 z2])
  have hm : ∃ m, 0 < m ∧ m ≤ (lineAt a b u).x - box.xmin ∧ m ≤ box.xmax - (lineAt a b u).x ∧
      m ≤ (lineAt a b u).y - box.ymin ∧ m ≤ box.ymax - (lineAt a b u).y := by
    refine ⟨min (min ((lineAt a b u).x - box.xmin) (box.xmax - (lineAt a b u).x))
      (min ((lineAt a b u).y - box.ymin) (box.ymax - (lineAt a b u).y)), ?_, ?_, ?_, ?_, ?_⟩
    · exact lt_min (lt_min (by linarith) (by linarith)) (lt_min (by linarith) (by linarith))
    · exact (min_le_left _ _).trans (min_le_left _ _)
    · exact (min_le_left _ _).trans (min_le_right _ _)
    · exact (min_le_right _ _).trans (min_le_left _ _)
    · exact (min_le_right _ _).trans (min_le_right _ _)
  obtain ⟨m, m0, m1, m2, m3, m4⟩ := hm
  have hδ : ∃ δ, 0 < δ ∧ δ ≤ 1 / 2 ∧ δ * (|b.x - a.x| + |b.y - a.y|) ≤ m := by
    refine ⟨min (1 / 2) (m / (|b.x - a.x| + |b.y - a.y|)), lt_min (by norm_num) (by positivity), min_le_left _ _, ?_⟩
    calc _ ≤ m / (|b.x - a.x| + |b.y - a.y|) * (|b.x - a.x| + |b.y - a.y|) :=
          mul_le_mul_of_nonneg_right (min_le_right _ _) hN.le
      _ = m := div_mul_cancel₀ _ hN.ne'
  obtain ⟨δ, d0, d1, d2⟩ := hδ
  have hin : ∀ w : K, |w| ≤ δ → InBox box (lineAt a b (u + w)) := by
    intro w hw
    have hx : |w * (b.x - a.x)| ≤ m := by
      rw [abs_mul]
      nlinarith [abs_nonneg (b.x - a.x), abs_nonneg (b.y - a.y), mul_le_mul_of_nonneg_right hw (abs_nonneg (b.x - a.x)),
        mul_nonneg d0.le (abs_nonneg (b.y - a.y))]
    have hy : |w * (b.y - a.y)| ≤ m := by
      rw [abs_mul]
      nlinarith [abs_nonneg (b.x - a.x), abs_nonneg (b.y - a.y), mul_le_mul_of_nonneg_right hw (abs_nonneg (b.y - a.y)),
        mul_nonneg d0.le (abs_nonneg (b.x - a.x))]
    obtain ⟨x1, x2⟩ := abs_le.1 hx
    obtain ⟨y1, y2⟩ := abs_le.1 hy
    simp only [lineAt] at m1 m2 m3 m4
    simp only [InBox, lineAt]
    refine ⟨?_, ?_, ?_, ?_⟩ <;> nlinarith
  have h0 : InBox box (lineAt a b u) := by have := hin 0 (by simpa using d0.le); rwa [add_zero] at this
  by_cases hu : u ≤ 1 / 2
  · exact ⟨hab, u, u + δ, u0, by linarith, by linarith, h0, hin δ (by rw [abs_of_pos d0])⟩
  · refine ⟨hab, u - δ, u, by linarith [not_le.1 hu], by linarith, u1, ?_, h0⟩
    have := hin (-δ) (by rw [abs_neg, abs_of_pos d0])
    rwa [← sub_eq_add_neg] at this

end Celltree
