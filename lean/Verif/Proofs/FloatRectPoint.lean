import Verif.Proofs.FloatConvex
import Verif.Proofs.PairArea
import Verif.Spec.FloatRects

/-!
# The point test for rectangles in binary64

For sides along the axes the ray test is exact, a point on a side is found, and the distance to a side is computed with a small
relative error.
-/

namespace Celltree.Fl

theorem inv_pow_add (j k : Nat) : (1 : ℚ) / 2 ^ (j + k) = 1 / 2 ^ j * (1 / 2 ^ k) := by
  rw [one_div_mul_one_div, pow_add]

/-- A side along one of the axes. -/
structure AxisSide (a b : Pt ℚ) : Prop where
  bnd_a : Bnd (2 ^ 200) a
  bnd_b : Bnd (2 ^ 200) b
  rep : IsRep a.x
  dir : (b.y = a.y ∧ 1 / 2 ^ 200 ≤ |b.x - a.x|) ∨ (b.x = a.x ∧ 1 / 2 ^ 200 ≤ |b.y - a.y|)

theorem AxisSide.height {a b : Pt ℚ} (h : AxisSide a b) : b.y = a.y ∨ 1 / 2 ^ 200 ≤ |b.y - a.y| :=
  h.dir.imp And.left And.right

theorem AxisSide.ray {a b : Pt ℚ} (h : AxisSide a b) (p : Pt ℚ) : rayF p (a, b) = decide (Crosses p (a, b)) := by
  unfold rayF Crosses
  rcases h.dir with ⟨h1, _⟩ | ⟨h1, h2⟩
  · by_cases c : p.y < a.y
    · simp [h1, c, not_le.2 c]
    · simp [h1, c]
  · have hx : rayX p a b = a.x := by
      unfold rayX
      rw [h1]; simp [rq_zero, rq_of_isRep h.rep]
    have ho : orient a b p = (b.y - a.y) * (a.x - p.x) := by
      unfold orient; rw [h1]; ring
    by_cases c1 : p.y < a.y <;> by_cases c2 : p.y < b.y
    · simp [c1, c2, not_le.2 c1, not_le.2 c2]
    · have hd : b.y - a.y < 0 := by linarith
      have : (b.y - a.y) * (a.x - p.x) < 0 ↔ p.x < a.x := by
        rw [mul_neg_iff]; constructor
        · rintro (⟨h, _⟩ | ⟨_, h⟩) <;> linarith
        · intro h; right; exact ⟨hd, by linarith⟩
      simp [hx, c1, c2, not_lt.1 c2, ho, this, not_le.2 c1]
    · have hd : 0 < b.y - a.y := by linarith
      have : 0 < (b.y - a.y) * (a.x - p.x) ↔ p.x < a.x := by
        rw [mul_pos_iff_of_pos_left hd, sub_pos]
      simp [hx, c1, c2, not_lt.1 c1, ho, this, not_le.2 c2]
    · simp [c1, c2]

/-- The squared length of a side. -/
theorem lsq_axis {L : ℚ} (h : 1 / 2 ^ 200 ≤ |L|) :
    1 / 2 ^ 400 ≤ rq (rq (rq L * rq L)) ∧ rq (rq (rq L * rq L)) ≤ (1 + 4 * u) * L ^ 2 := by
  have hu := u_pos
  have hu' := u_le
  have hL : 1 / 2 ^ 200 ≤ |rq L| := le_abs_rq (by norm_num) h
  have e400 : (1 : ℚ) / 2 ^ 400 = 1 / 2 ^ 200 * (1 / 2 ^ 200) := inv_pow_add 200 200
  have hsq : 1 / 2 ^ 400 ≤ rq L * rq L := by
    rw [← abs_mul_abs_self, e400]
    exact mul_le_mul hL hL (by positivity) (abs_nonneg _)
  have e1 : rq (rq (rq L * rq L)) = rq (rq L * rq L) := rq_of_isRep (rq_isRep _)
  rw [e1]
  have h0 : 0 < rq L * rq L := lt_of_lt_of_le (by positivity) hsq
  refine ⟨?_, ?_⟩
  · have := le_abs_rq (q := rq L * rq L) (k := 400) (by norm_num) (by rwa [abs_of_pos h0])
    rwa [abs_of_nonneg (rq_nonneg h0.le)] at this
  · have t1 : (1 : ℚ) / 2 ^ 1000 ≤ 1 / 2 ^ 400 := inv_pow_le (by norm_num)
    have t2 : (1 : ℚ) / 2 ^ 1000 ≤ 1 / 2 ^ 200 := inv_pow_le (by norm_num)
    have g1 := rq_rel (x := rq L * rq L) (by rw [abs_of_pos h0]; exact t1.trans hsq)
    rw [abs_of_pos h0] at g1
    have g2 := rq_rel (x := L) (t2.trans h)
    have g3 : |rq L| ≤ (1 + u) * |L| := by
      have := abs_sub_abs_le_abs_sub (rq L) L
      linarith
    have g4 : rq L * rq L ≤ (1 + u) ^ 2 * L ^ 2 := by
      have := mul_le_mul g3 g3 (abs_nonneg _) (by positivity)
      rw [abs_mul_abs_self] at this
      calc rq L * rq L ≤ _ := this
        _ = (1 + u) ^ 2 * (|L| * |L|) := by ring
        _ = _ := by rw [abs_mul_abs_self]; ring
    have g5 := (abs_le.1 g1).2
    calc rq (rq L * rq L) ≤ (1 + u) * (rq L * rq L) := by linarith
      _ ≤ (1 + u) * ((1 + u) ^ 2 * L ^ 2) := mul_le_mul_of_nonneg_left g4 (by linarith)
      _ = (1 + u) ^ 3 * L ^ 2 := by ring
      _ ≤ (1 + 4 * u) * L ^ 2 := by
        refine mul_le_mul_of_nonneg_right ?_ (sq_nonneg L)
        unfold u; norm_num

/-- The right hand side of the nearness test. -/
theorem rhs_axis {tol q L : ℚ} (ht : 1 / 2 ^ 200 ≤ tol) (h1 : 1 / 2 ^ 400 ≤ q) (h2 : q ≤ (1 + 4 * u) * L ^ 2) :
    0 < rq (rq (tol * q) * tol) ∧ rq (rq (tol * q) * tol) ≤ (1 + 7 * u) * (tol ^ 2 * L ^ 2) := by
  have hu := u_pos
  have hu' := u_le
  have t0 : 0 < tol := lt_of_lt_of_le (by positivity) ht
  have q0 : 0 < q := lt_of_lt_of_le (by positivity) h1
  have e600 : (1 : ℚ) / 2 ^ 600 = 1 / 2 ^ 200 * (1 / 2 ^ 400) := inv_pow_add 200 400
  have e800 : (1 : ℚ) / 2 ^ 800 = 1 / 2 ^ 600 * (1 / 2 ^ 200) := inv_pow_add 600 200
  have m1 : 1 / 2 ^ 600 ≤ tol * q := by rw [e600]; exact mul_le_mul ht h1 (by positivity) t0.le
  have p1 : 0 < tol * q := by positivity
  have m2 : 1 / 2 ^ 600 ≤ rq (tol * q) := by
    have := le_abs_rq (q := tol * q) (k := 600) (by norm_num) (by rwa [abs_of_pos p1])
    rwa [abs_of_nonneg (rq_nonneg p1.le)] at this
  have p2 : 0 < rq (tol * q) := lt_of_lt_of_le (by positivity) m2
  have m3 : 1 / 2 ^ 800 ≤ rq (tol * q) * tol := by rw [e800]; exact mul_le_mul m2 ht (by positivity) p2.le
  have p3 : 0 < rq (tol * q) * tol := by positivity
  have s1 : (1 : ℚ) / 2 ^ 1000 ≤ 1 / 2 ^ 600 := inv_pow_le (by norm_num)
  have s2 : (1 : ℚ) / 2 ^ 1000 ≤ 1 / 2 ^ 800 := inv_pow_le (by norm_num)
  have g1 := rq_rel (x := tol * q) (by rw [abs_of_pos p1]; exact s1.trans m1)
  have g2 := rq_rel (x := rq (tol * q) * tol) (by rw [abs_of_pos p3]; exact s2.trans m3)
  rw [abs_of_pos p1] at g1
  rw [abs_of_pos p3] at g2
  refine ⟨?_, ?_⟩
  · have := (abs_le.1 g2).1
    have : 0 < (1 - u) * (rq (tol * q) * tol) := mul_pos (by linarith) p3
    linarith
  · have a1 := (abs_le.1 g1).2
    have a2 := (abs_le.1 g2).2
    have b1 : rq (tol * q) ≤ (1 + u) * (tol * q) := by linarith
    calc rq (rq (tol * q) * tol) ≤ (1 + u) * (rq (tol * q) * tol) := by linarith
      _ ≤ (1 + u) * ((1 + u) * (tol * q) * tol) :=
        mul_le_mul_of_nonneg_left (mul_le_mul_of_nonneg_right b1 t0.le) (by linarith)
      _ = (1 + u) ^ 2 * tol ^ 2 * q := by ring
      _ ≤ (1 + u) ^ 2 * tol ^ 2 * ((1 + 4 * u) * L ^ 2) := mul_le_mul_of_nonneg_left h2 (by positivity)
      _ = ((1 + u) ^ 2 * (1 + 4 * u)) * (tol ^ 2 * L ^ 2) := by ring
      _ ≤ _ := by
        refine mul_le_mul_of_nonneg_right ?_ (by positivity)
        unfold u; norm_num

/-- If the test of the code finds a point near a side, it is not farther from it than the tolerance, up to rounding. -/
theorem near_axis {tol w L C q : ℚ} (ht : 1 / 2 ^ 200 ≤ tol) (hL : 1 / 2 ^ 200 ≤ |L|)
    (hC : 1 / 2 ^ 500 ≤ |w| → (1 - 9 * u) * (|w| * |L|) ≤ |C|) (h1 : 1 / 2 ^ 400 ≤ q) (h2 : q ≤ (1 + 4 * u) * L ^ 2)
    (h : rq (C * C) < rq (rq (tol * q) * tol)) : |w| ≤ (1 + 1 / 2 ^ 47) * tol := by
  have hu := u_pos
  have hu' := u_le
  have t0 : 0 < tol := lt_of_lt_of_le (by positivity) ht
  by_contra hcon
  push Not at hcon
  have hw : tol < |w| := by
    have : 0 < 1 / 2 ^ 47 * tol := by positivity
    linarith
  have s1 : (1 : ℚ) / 2 ^ 500 ≤ 1 / 2 ^ 200 := inv_pow_le (by norm_num)
  have hC := hC (s1.trans (ht.trans hw.le))
  have w0 : 0 < |w| := t0.trans hw
  have L0 : 0 < |L| := lt_of_lt_of_le (by positivity) hL
  have wl : 1 / 2 ^ 400 ≤ |w| * |L| := by
    have e400 : (1 : ℚ) / 2 ^ 400 = 1 / 2 ^ 200 * (1 / 2 ^ 200) := inv_pow_add 200 200
    rw [e400]
    exact mul_le_mul (ht.trans hw.le) hL (by positivity) w0.le
  have C1 : 1 / 2 ^ 401 ≤ |C| := by
    have : (1 : ℚ) / 2 ^ 401 = 1 / 2 * (1 / 2 ^ 400) := by simpa using inv_pow_add 1 400
    rw [this]
    have : 1 / 2 * (|w| * |L|) ≤ (1 - 9 * u) * (|w| * |L|) := mul_le_mul_of_nonneg_right (by linarith) (by positivity)
    linarith
  have CC : 1 / 2 ^ 802 ≤ C * C := by
    have : (1 : ℚ) / 2 ^ 802 = 1 / 2 ^ 401 * (1 / 2 ^ 401) := inv_pow_add 401 401
    rw [this, ← abs_mul_abs_self C]
    exact mul_le_mul C1 C1 (by positivity) (abs_nonneg _)
  have CC0 : 0 < C * C := lt_of_lt_of_le (by positivity) CC
  have s2 : (1 : ℚ) / 2 ^ 1000 ≤ 1 / 2 ^ 802 := inv_pow_le (by norm_num)
  have g1 := rq_rel (x := C * C) (by rw [abs_of_pos CC0]; exact s2.trans CC)
  rw [abs_of_pos CC0] at g1
  have a1 := (abs_le.1 g1).1
  have g2 : (1 - 9 * u) ^ 2 * (w ^ 2 * L ^ 2) ≤ C * C := by
    have := mul_le_mul hC hC (mul_nonneg (by linarith) (by positivity)) (abs_nonneg _)
    rw [abs_mul_abs_self] at this
    calc (1 - 9 * u) ^ 2 * (w ^ 2 * L ^ 2) = (1 - 9 * u) ^ 2 * (|w| ^ 2 * |L| ^ 2) := by rw [sq_abs, sq_abs]
      _ = (1 - 9 * u) * (|w| * |L|) * ((1 - 9 * u) * (|w| * |L|)) := by ring
      _ ≤ _ := this
  have g3 := (rhs_axis ht h1 h2).2
  have LL : 0 < L ^ 2 := by rw [← sq_abs]; positivity
  have g4 : (1 - u) * ((1 - 9 * u) ^ 2 * (w ^ 2 * L ^ 2)) < (1 + 7 * u) * (tol ^ 2 * L ^ 2) := by
    have : (1 - u) * ((1 - 9 * u) ^ 2 * (w ^ 2 * L ^ 2)) ≤ (1 - u) * (C * C) := mul_le_mul_of_nonneg_left g2 (by linarith)
    linarith
  have g5 : (1 - u) * (1 - 9 * u) ^ 2 * w ^ 2 < (1 + 7 * u) * tol ^ 2 := by
    refine lt_of_mul_lt_mul_right (a := L ^ 2) ?_ LL.le
    linarith
  have g6 : ((1 + 1 / 2 ^ 47) * tol) ^ 2 ≤ w ^ 2 := by
    rw [← sq_abs w]
    exact pow_le_pow_left₀ (by positivity) hcon.le 2
  have g7 : (1 - u) * (1 - 9 * u) ^ 2 * ((1 + 1 / 2 ^ 47) * tol) ^ 2 < (1 + 7 * u) * tol ^ 2 :=
    lt_of_le_of_lt (mul_le_mul_of_nonneg_left g6 (mul_nonneg (by linarith) (sq_nonneg _))) g5
  have g8 : (1 - u) * (1 - 9 * u) ^ 2 * (1 + 1 / 2 ^ 47) ^ 2 < 1 + 7 * u := by
    refine lt_of_mul_lt_mul_right (a := tol ^ 2) ?_ (by positivity)
    linarith
  unfold u at g8
  norm_num at g8

/-! ## The nearness test for a side -/

theorem lsqF_x {a b : Pt ℚ} (h : b.y = a.y) : lsqF a b = rq (rq (rq (b.x - a.x) * rq (b.x - a.x))) := by
  unfold lsqF; rw [h]; simp [rq_zero]

theorem lsqF_y {a b : Pt ℚ} (h : b.x = a.x) : lsqF a b = rq (rq (rq (b.y - a.y) * rq (b.y - a.y))) := by
  unfold lsqF; rw [h]; simp [rq_zero]

theorem rq_abs_pos {L : ℚ} (h : 1 / 2 ^ 200 ≤ |L|) : 0 < rq |L| := by
  rw [← abs_rq]
  exact lt_of_lt_of_le (by positivity) (le_abs_rq (by norm_num) h)

/-- A point on a side is found. -/
theorem AxisSide.near_of_on {a b : Pt ℚ} (h : AxisSide a b) {tol : ℚ} (ht : 1 / 2 ^ 200 ≤ tol) {p : Pt ℚ}
    (hx : min a.x b.x ≤ p.x ∧ p.x ≤ max a.x b.x) (hy : min a.y b.y ≤ p.y ∧ p.y ≤ max a.y b.y) : NearF tol p (a, b) := by
  rcases h.dir with ⟨h1, h2⟩ | ⟨h1, h2⟩
  · have py : p.y = a.y := by
      rw [h1, min_self, max_self] at hy; exact le_antisymm hy.2 hy.1
    have hc : crossF p a b = 0 := by unfold crossF; rw [h1, py]; simp [rq_zero]
    obtain ⟨g1, g2⟩ := lsq_axis h2
    refine ⟨?_, Or.inl ⟨?_, hx⟩⟩
    · simp only [hc, mul_zero, rq_zero]
      rw [lsqF_x h1]
      exact (rhs_axis ht g1 g2).1
    · simp only
      rw [h1, sub_self, abs_zero, rq_zero]
      exact (rq_abs_pos h2).le
  · have px : p.x = a.x := by
      rw [h1, min_self, max_self] at hx; exact le_antisymm hx.2 hx.1
    have hc : crossF p a b = 0 := by unfold crossF; rw [h1, px]; simp [rq_zero]
    obtain ⟨g1, g2⟩ := lsq_axis h2
    refine ⟨?_, Or.inr ⟨?_, hy⟩⟩
    · simp only [hc, mul_zero, rq_zero]
      rw [lsqF_y h1]
      exact (rhs_axis ht g1 g2).1
    · simp only
      rw [h1, sub_self, abs_zero, rq_zero]
      exact rq_abs_pos h2

theorem axis_between {x y p : ℚ} (h : min x y ≤ p ∧ p ≤ max x y) : |x - p| ≤ |y - x| ∧ |y - p| ≤ |y - x| := by
  rcases le_total x y with g | g
  · rw [min_eq_left g, max_eq_right g] at h
    rw [abs_of_nonneg (by linarith : 0 ≤ y - x), abs_of_nonpos (by linarith), abs_of_nonneg (by linarith)]
    exact ⟨by linarith, by linarith⟩
  · rw [min_eq_right g, max_eq_left g] at h
    rw [abs_of_nonpos (by linarith : y - x ≤ 0), abs_of_nonneg (by linarith), abs_of_nonpos (by linarith)]
    exact ⟨by linarith, by linarith⟩

theorem lower_of_err {C w L : ℚ} (h : |C - w * L| ≤ 9 * u * (|L| * |w|)) : (1 - 9 * u) * (|w| * |L|) ≤ |C| := by
  have h1 := abs_sub_abs_le_abs_sub (w * L) C
  rw [abs_sub_comm, abs_mul] at h1
  linarith

/-- A point that is found near a side is not beyond its ends, and not farther from it than the tolerance. -/
theorem AxisSide.near_sound {a b : Pt ℚ} (h : AxisSide a b) {tol : ℚ} (ht : 1 / 2 ^ 200 ≤ tol) {p : Pt ℚ}
    (hn : NearF tol p (a, b)) :
    (min a.x b.x ≤ p.x ∧ p.x ≤ max a.x b.x ∧ b.y = a.y ∧ |a.y - p.y| ≤ (1 + 1 / 2 ^ 47) * tol) ∨
      (min a.y b.y ≤ p.y ∧ p.y ≤ max a.y b.y ∧ b.x = a.x ∧ |a.x - p.x| ≤ (1 + 1 / 2 ^ 47) * tol) := by
  obtain ⟨hn1, hn2⟩ := hn
  have s1 : (1 : ℚ) / 2 ^ 500 ≤ 1 / 2 ^ 200 := inv_pow_le (by norm_num)
  simp only at hn1 hn2
  rcases h.dir with ⟨h1, h2⟩ | ⟨h1, h2⟩
  · left
    have hb : min a.x b.x ≤ p.x ∧ p.x ≤ max a.x b.x := by
      rcases hn2 with ⟨_, g⟩ | ⟨g, _⟩
      · exact g
      · rw [h1, sub_self, abs_zero, rq_zero] at g
        exact absurd g (not_lt.2 (rq_nonneg (abs_nonneg _)))
    refine ⟨hb.1, hb.2, h1, ?_⟩
    obtain ⟨g1, g2⟩ := lsq_axis h2
    rw [lsqF_x h1] at hn1
    refine near_axis (L := b.x - a.x) ht h2 (fun hw => ?_) g1 g2 hn1
    obtain ⟨m1, m2⟩ := axis_between hb
    have := cross_err (ux := a.x - p.x) (vx := b.x - p.x) (uy := a.y - p.y) (vy := b.y - p.y) (R := |b.x - a.x|)
      (S := |a.y - p.y|) m1 m2 (le_refl _) (by rw [h1]) (s1.trans h2) hw
    have e : |crossF p a b - (a.y - p.y) * (a.x - b.x)| ≤ 9 * u * (|a.x - b.x| * |a.y - p.y|) := by
      rw [abs_sub_comm a.x b.x]
      have e1 : (a.y - p.y) * (a.x - b.x) = (a.x - p.x) * (b.y - p.y) - (a.y - p.y) * (b.x - p.x) := by rw [h1]; ring
      rw [e1]; exact this
    have := lower_of_err e
    rwa [abs_sub_comm a.x b.x] at this
  · right
    have hb : min a.y b.y ≤ p.y ∧ p.y ≤ max a.y b.y := by
      rcases hn2 with ⟨g, _⟩ | ⟨_, g⟩
      · rw [h1, sub_self, abs_zero, rq_zero] at g
        exact absurd g (not_le.2 (rq_abs_pos h2))
      · exact g
    refine ⟨hb.1, hb.2, h1, ?_⟩
    obtain ⟨g1, g2⟩ := lsq_axis h2
    rw [lsqF_y h1] at hn1
    refine near_axis (L := b.y - a.y) ht h2 (fun hw => ?_) g1 g2 hn1
    obtain ⟨m1, m2⟩ := axis_between hb
    have := cross_err (ux := a.x - p.x) (vx := b.x - p.x) (uy := a.y - p.y) (vy := b.y - p.y) (R := |a.x - p.x|)
      (S := |b.y - a.y|) (le_refl _) (by rw [h1]) m1 m2 hw (s1.trans h2)
    have e : |crossF p a b - (a.x - p.x) * (b.y - a.y)| ≤ 9 * u * (|b.y - a.y| * |a.x - p.x|) := by
      have e1 : (a.x - p.x) * (b.y - a.y) = (a.x - p.x) * (b.y - p.y) - (a.y - p.y) * (b.x - p.x) := by rw [h1]; ring
      rw [e1, mul_comm |b.y - a.y|]; exact this
    exact lower_of_err e

/-! ## Rectangles -/

theorem PlainRect.pos {c : Box ℚ} (hc : PlainRect c) : c.xmin < c.xmax ∧ c.ymin < c.ymax := by
  have h : (0 : ℚ) < 1 / 2 ^ 200 := by positivity
  exact ⟨by linarith [hc.wide], by linarith [hc.high]⟩

theorem PlainRect.side {c : Box ℚ} (hc : PlainRect c) {s : Pt ℚ × Pt ℚ} (hs : s ∈ sides (rectPts c) ∨ s.swap ∈ sides (rectPts c)) :
    AxisSide s.1 s.2 ∧ (c.xmin ≤ s.1.x ∧ s.1.x ≤ c.xmax ∧ c.ymin ≤ s.1.y ∧ s.1.y ≤ c.ymax) ∧
      (c.xmin ≤ s.2.x ∧ s.2.x ≤ c.xmax ∧ c.ymin ≤ s.2.y ∧ s.2.y ≤ c.ymax) := by
  obtain ⟨x1, y1⟩ := hc.pos
  have X1 : 1 / 2 ^ 200 ≤ |c.xmax - c.xmin| := by rw [abs_of_pos (by linarith)]; linarith [hc.wide]
  have Y1 : 1 / 2 ^ 200 ≤ |c.ymax - c.ymin| := by rw [abs_of_pos (by linarith)]; linarith [hc.high]
  have X2 : 1 / 2 ^ 200 ≤ |c.xmin - c.xmax| := by rw [abs_sub_comm]; exact X1
  have Y2 : 1 / 2 ^ 200 ≤ |c.ymin - c.ymax| := by rw [abs_sub_comm]; exact Y1
  have b1 : Bnd (2 ^ 200) (⟨c.xmin, c.ymin⟩ : Pt ℚ) := ⟨hc.xmin.2, hc.ymin.2⟩
  have b2 : Bnd (2 ^ 200) (⟨c.xmax, c.ymin⟩ : Pt ℚ) := ⟨hc.xmax.2, hc.ymin.2⟩
  have b3 : Bnd (2 ^ 200) (⟨c.xmax, c.ymax⟩ : Pt ℚ) := ⟨hc.xmax.2, hc.ymax.2⟩
  have b4 : Bnd (2 ^ 200) (⟨c.xmin, c.ymax⟩ : Pt ℚ) := ⟨hc.xmin.2, hc.ymax.2⟩
  have r1 := hc.xmin.1
  have r2 := hc.xmax.1
  have hx := x1.le
  have hy := y1.le
  obtain ⟨a, b⟩ := s
  unfold rectPts sides at hs
  simp only [List.cons_append, List.nil_append, pairs, List.mem_cons, List.not_mem_nil, or_false, Prod.swap_prod_mk,
    Prod.mk.injEq] at hs
  rcases hs with (⟨rfl, rfl⟩ | ⟨rfl, rfl⟩ | ⟨rfl, rfl⟩ | ⟨rfl, rfl⟩) | (⟨rfl, rfl⟩ | ⟨rfl, rfl⟩ | ⟨rfl, rfl⟩ | ⟨rfl, rfl⟩)
  · exact ⟨⟨b1, b2, r1, Or.inl ⟨rfl, X1⟩⟩, ⟨le_refl _, hx, le_refl _, hy⟩, hx, le_refl _, le_refl _, hy⟩
  · exact ⟨⟨b2, b3, r2, Or.inr ⟨rfl, Y1⟩⟩, ⟨hx, le_refl _, le_refl _, hy⟩, hx, le_refl _, hy, le_refl _⟩
  · exact ⟨⟨b3, b4, r2, Or.inl ⟨rfl, X2⟩⟩, ⟨hx, le_refl _, hy, le_refl _⟩, le_refl _, hx, hy, le_refl _⟩
  · exact ⟨⟨b4, b1, r1, Or.inr ⟨rfl, Y2⟩⟩, ⟨le_refl _, hx, hy, le_refl _⟩, le_refl _, hx, le_refl _, hy⟩
  · exact ⟨⟨b2, b1, r2, Or.inl ⟨rfl, X2⟩⟩, ⟨hx, le_refl _, le_refl _, hy⟩, le_refl _, hx, le_refl _, hy⟩
  · exact ⟨⟨b3, b2, r2, Or.inr ⟨rfl, Y2⟩⟩, ⟨hx, le_refl _, hy, le_refl _⟩, hx, le_refl _, le_refl _, hy⟩
  · exact ⟨⟨b4, b3, r1, Or.inl ⟨rfl, X1⟩⟩, ⟨le_refl _, hx, hy, le_refl _⟩, hx, le_refl _, hy, le_refl _⟩
  · exact ⟨⟨b1, b4, r1, Or.inr ⟨rfl, Y1⟩⟩, ⟨le_refl _, hx, le_refl _, hy⟩, le_refl _, hx, hy, le_refl _⟩

/-- The sides of the rectangle, starting at any corner, in either direction. -/
theorem PlainRect.sides_of {c : Box ℚ} (hc : PlainRect c) {l poly : List (Pt ℚ)} (hl : l ~r rectPts c)
    (hpoly : poly = l ∨ poly = l.reverse) {s : Pt ℚ × Pt ℚ} (hs : s ∈ sides poly) :
    AxisSide s.1 s.2 ∧ (c.xmin ≤ s.1.x ∧ s.1.x ≤ c.xmax ∧ c.ymin ≤ s.1.y ∧ s.1.y ≤ c.ymax) ∧
      (c.xmin ≤ s.2.x ∧ s.2.x ≤ c.xmax ∧ c.ymin ≤ s.2.y ∧ s.2.y ≤ c.ymax) :=
  hc.side ((mem_sides_poly' hpoly hs).imp (sides_isRotated hl).mem_iff.1 (sides_isRotated hl).mem_iff.1)

theorem PlainRect.convex {c : Box ℚ} (hc : PlainRect c) {l : List (Pt ℚ)} (hl : l ~r rectPts c) : ConvexPoly l :=
  (boxPoly_convex hc.pos.1 hc.pos.2).rotated hl.symm

theorem PlainRect.inPoly {c : Box ℚ} (hc : PlainRect c) {l : List (Pt ℚ)} (hl : l ~r rectPts c) (p : Pt ℚ) :
    InPoly l p ↔ InBox c p :=
  ⟨fun h => (boxPoly_inPoly hc.pos.1 hc.pos.2 p).1 (h.rotated hl), fun h => ((boxPoly_inPoly hc.pos.1 hc.pos.2 p).2 h).rotated hl.symm⟩

theorem PlainRect.countP {c : Box ℚ} (hc : PlainRect c) {l poly : List (Pt ℚ)} (hl : l ~r rectPts c)
    (hpoly : poly = l ∨ poly = l.reverse) (p : Pt ℚ) :
    (sides poly).countP (rayF p) = (sides l).countP (fun s => decide (Crosses p s)) := by
  rw [← countP_poly hpoly]
  apply List.countP_congr
  intro s hs
  rw [(hc.sides_of hl hpoly hs).1.ray p]

/-- A rectangle accepts all of its points. -/
theorem PlainRect.accepts {c : Box ℚ} (hc : PlainRect c) {l poly : List (Pt ℚ)} (hl : l ~r rectPts c)
    (hpoly : poly = l ∨ poly = l.reverse) {tol : ℚ} (ht : 1 / 2 ^ 200 ≤ tol) {p : Pt ℚ} (hp : InBox c p) : AcceptsF tol poly p := by
  have hcv := hc.convex hl
  have hin := (hc.inPoly hl p).2 hp
  by_cases hi : InInterior l p
  · right
    rw [hc.countP hl hpoly]
    exact hcv.interior_odd hi
  · left
    obtain ⟨⟨a, b⟩, hs, hne, w, h0, h1, rfl⟩ := hcv.on_side hin hi
    have key : ∀ x y : ℚ, min x y ≤ x + w * (y - x) ∧ x + w * (y - x) ≤ max x y := by
      intro x y
      rcases le_total x y with h | h
      · have g1 := mul_nonneg h0 (sub_nonneg.2 h)
        have g2 := mul_nonneg (sub_nonneg.2 h1) (sub_nonneg.2 h)
        rw [min_eq_left h, max_eq_right h]; constructor <;> linarith only [g1, g2]
      · have g1 := mul_nonneg h0 (sub_nonneg.2 h)
        have g2 := mul_nonneg (sub_nonneg.2 h1) (sub_nonneg.2 h)
        rw [min_eq_right h, max_eq_left h]; constructor <;> linarith only [g1, g2]
    rcases mem_sides_poly hpoly hs with h | h
    · exact ⟨(a, b), h, hne, (hc.sides_of hl hpoly h).1.near_of_on ht (key a.x b.x) (key a.y b.y)⟩
    · refine ⟨(b, a), h, Ne.symm hne, (hc.sides_of hl hpoly h).1.near_of_on ht ?_ ?_⟩
      · have := key a.x b.x
        simp only [Prod.swap_prod_mk]
        rw [min_comm, max_comm]; exact this
      · have := key a.y b.y
        simp only [Prod.swap_prod_mk]
        rw [min_comm, max_comm]; exact this

/-- A point that a rectangle accepts is not farther from it than the tolerance. -/
theorem PlainRect.sound {c : Box ℚ} (hc : PlainRect c) {l poly : List (Pt ℚ)} (hl : l ~r rectPts c)
    (hpoly : poly = l ∨ poly = l.reverse) {tol : ℚ} (ht : 1 / 2 ^ 200 ≤ tol) {p : Pt ℚ} (ha : AcceptsF tol poly p) :
    NearBox ((1 + 1 / 2 ^ 47) * tol) c p := by
  have t0 : 0 < (1 + 1 / 2 ^ 47) * tol := by
    have : 0 < tol := lt_of_lt_of_le (by positivity) ht
    positivity
  rcases ha with ⟨⟨a, b⟩, hs, _, hn⟩ | ho
  · obtain ⟨hax, ⟨a1, a2, a3, a4⟩, b1, b2, b3, b4⟩ := hc.sides_of hl hpoly hs
    simp only at a1 a2 a3 a4 b1 b2 b3 b4
    rcases hax.near_sound ht hn with ⟨h1, h2, _, h4⟩ | ⟨h1, h2, _, h4⟩
    · rw [abs_le] at h4
      have := le_min a1 b1
      have := max_le a2 b2
      exact ⟨by linarith, by linarith, by linarith, by linarith⟩
    · rw [abs_le] at h4
      have := le_min a3 b3
      have := max_le a4 b4
      exact ⟨by linarith, by linarith, by linarith, by linarith⟩
  · rw [hc.countP hl hpoly] at ho
    have hin : InBox c p := (hc.inPoly hl p).1 ((hc.convex hl).odd_inPoly ho)
    obtain ⟨g1, g2, g3, g4⟩ := hin
    exact ⟨by linarith, by linarith, by linarith, by linarith⟩

/-- The test of the code, in terms of what is computed for every side. -/
theorem test_sides {tol : ℚ} {poly : List (Pt ℚ)} {p : Pt ℚ} (hne : poly ≠ []) (hb : ∀ v ∈ poly, Bnd (2 ^ 200) v)
    (hy : ∀ s ∈ sides poly, s.2.y = s.1.y ∨ 1 / 2 ^ 200 ≤ |s.2.y - s.1.y|) (hp : Bnd (2 ^ 200) p) (ht : |tol| ≤ 2 ^ 200) :
    ∃ b, pointInPolygonOrOnEdge (fp p) (poly.map fp) (fin tol) = .ok b ∧ (b = true ↔ AcceptsF tol poly p) := by
  cases poly with
  | nil => exact (hne rfl).elim
  | cons a l =>
    unfold pointInPolygonOrOnEdge
    have hne' : (a :: l).map fp ≠ [] := by simp
    rw [rdI_last hne', ok_bind]
    have hlast : ((a :: l).map fp).getLast hne' = fp ((a :: l).getLast hne) := List.getLast_map hne'
    rw [hlast]
    obtain ⟨b, h1, h2⟩ := loop_fl (tol := tol) hp ht ((a :: l).getLast hne) (a :: l) (hb _ (List.getLast_mem hne)) hb
      (fun s hs => hy s ((sides_perm a l).mem_iff.2 hs)) false
    refine ⟨b, h1, h2.trans ?_⟩
    unfold AcceptsF
    rw [(sides_perm a l).countP_eq]
    simp only [(sides_perm a l).mem_iff, Bool.false_eq_true, if_false, Nat.zero_add]

theorem PlainRect.test {c : Box ℚ} (hc : PlainRect c) {l poly : List (Pt ℚ)} (hl : l ~r rectPts c)
    (hpoly : poly = l ∨ poly = l.reverse) {tol : ℚ} (ht : 1 / 2 ^ 200 ≤ tol) (ht' : tol ≤ 2 ^ 200) {p : Pt ℚ}
    (hp : Bnd (2 ^ 200) p) :
    ∃ b, pointInPolygonOrOnEdge (fp p) (poly.map fp) (fin tol) = .ok b ∧ (b = true ↔ AcceptsF tol poly p) := by
  have t0 : 0 < tol := lt_of_lt_of_le (by positivity) ht
  refine test_sides ?_ (fun v hv => ?_) (fun s hs => (hc.sides_of hl hpoly hs).1.height) hp (by rwa [abs_of_pos t0])
  · have : l ≠ [] := (hc.convex hl).ne_nil
    rcases hpoly with rfl | rfl
    · exact this
    · simpa using this
  · have hv' : v ∈ rectPts c := by
      refine hl.mem_iff.1 ?_
      rcases hpoly with rfl | rfl
      · exact hv
      · exact List.mem_reverse.1 hv
    unfold rectPts at hv'
    simp only [List.mem_cons, List.not_mem_nil, or_false] at hv'
    rcases hv' with rfl | rfl | rfl | rfl
    · exact ⟨hc.xmin.2, hc.ymin.2⟩
    · exact ⟨hc.xmax.2, hc.ymin.2⟩
    · exact ⟨hc.xmax.2, hc.ymax.2⟩
    · exact ⟨hc.xmin.2, hc.ymax.2⟩

end Celltree.Fl
