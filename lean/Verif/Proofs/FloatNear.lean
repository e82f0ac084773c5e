import Verif.Proofs.FloatPoint

/-!
# The nearness test in binary64

A point that is near a side passes the test of the code; a point that passes the test is near the side.
-/

namespace Celltree.Fl

theorem inv_pow_le {i j : ℕ} (h : i ≤ j) : (1 : ℚ) / 2 ^ j ≤ 1 / 2 ^ i :=
  div_le_div_of_nonneg_left (by norm_num) (by positivity) (pow_le_pow_right₀ (by norm_num) h)

theorem inv_pow_mul {x y : ℚ} {i j : ℕ} (hx : 1 / 2 ^ i ≤ x) (hy : 1 / 2 ^ j ≤ y) : 1 / 2 ^ (i + j) ≤ x * y := by
  have : (1 : ℚ) / 2 ^ (i + j) = 1 / 2 ^ i * (1 / 2 ^ j) := by rw [pow_add]; field_simp
  rw [this]
  exact mul_le_mul hx hy (by positivity) (le_trans (by positivity) hx)

theorem rq_lower {x y : ℚ} {k : ℕ} (hk : k ≤ 1000) (hx : 1 / 2 ^ k ≤ x) (h : x ≤ y) : 99 / 100 * x ≤ rq y :=
  (rq_between ((inv_pow_le hk).trans hx)).1.trans (rq_mono h)

theorem rq_upper {x y : ℚ} {k : ℕ} (hk : k ≤ 1000) (hx : 1 / 2 ^ k ≤ x) (h : y ≤ x) : rq y ≤ 101 / 100 * x :=
  (rq_mono h).trans (rq_between ((inv_pow_le hk).trans hx)).2

/-- The computed cross product. -/
def crossR (ux uy vx vy : ℚ) : ℚ := rq (rq (rq ux * rq vy) - rq (rq uy * rq vx))

/-- The computed squared length. -/
def lsqR (dx dy : ℚ) : ℚ := rq (rq (rq dx * rq dx) + rq (rq dy * rq dy))

theorem crossR_swap (ux uy vx vy : ℚ) : crossR uy ux vy vx = - crossR ux uy vx vy := by
  unfold crossR
  rw [← rq_neg]
  congr 1
  ring

theorem lsqR_swap (dx dy : ℚ) : lsqR dy dx = lsqR dx dy := by
  unfold lsqR; rw [add_comm]

theorem half_le {L : ℚ} {i : ℕ} (h : 1 / 2 ^ i ≤ L) : 1 / 2 ^ (i + 1) ≤ 1 / 2 * L := by
  have : (1 : ℚ) / 2 ^ (i + 1) = 1 / 2 * (1 / 2 ^ i) := by rw [pow_succ]; field_simp
  rw [this]; linarith

theorem scale_le {L c : ℚ} {i : ℕ} (h : 1 / 2 ^ i ≤ L) (hc : 1 / 2 ≤ c) : 1 / 2 ^ (i + 1) ≤ c * L :=
  (half_le h).trans (mul_le_mul_of_nonneg_right hc (le_trans (by positivity) h))

/-- Lower bound of the squared length. -/
theorem lsqR_lower {dx dy L : ℚ} (hL : 1 / 2 ^ 160 ≤ L) (h : L = |dx|) : 96 / 100 * (L * L) ≤ lsqR dx dy := by
  have hL0 : 0 < L := lt_of_lt_of_le (by positivity) hL
  have h1 : 99 / 100 * L ≤ |rq dx| := by
    rw [abs_rq, ← h]; exact rq_lower (by norm_num) hL le_rfl
  have h2 : 98 / 100 * (L * L) ≤ rq dx * rq dx := by
    rw [← abs_mul_abs_self (rq dx)]
    nlinarith
  have hLL := inv_pow_mul hL hL
  have h3 := rq_lower (by norm_num) (scale_le hLL (show (1 : ℚ) / 2 ≤ 98 / 100 by norm_num)) h2
  have h4 : 0 ≤ rq (rq dy * rq dy) := rq_nonneg (mul_self_nonneg _)
  have h5 := rq_lower (by norm_num) (scale_le hLL (show (1 : ℚ) / 2 ≤ 97 / 100 by norm_num))
    (show 97 / 100 * (L * L) ≤ rq (rq dx * rq dx) + rq (rq dy * rq dy) by nlinarith)
  unfold lsqR
  nlinarith

/-- Upper bound of the squared length. -/
theorem lsqR_upper {dx dy L : ℚ} (hL : 1 / 2 ^ 160 ≤ L) (h1 : |dx| ≤ L) (h2 : |dy| ≤ L) :
    lsqR dx dy ≤ 2085 / 1000 * (L * L) := by
  have hL0 : 0 < L := lt_of_lt_of_le (by positivity) hL
  have hLL := inv_pow_mul hL hL
  have key : ∀ d : ℚ, |d| ≤ L → rq (rq d * rq d) ≤ 10304 / 10000 * (L * L) := by
    intro d hd
    have h3 : |rq d| ≤ 101 / 100 * L := by
      rw [abs_rq]; exact rq_upper (by norm_num) hL hd
    have h4 : rq d * rq d ≤ 10201 / 10000 * (L * L) := by
      rw [← abs_mul_abs_self (rq d)]
      nlinarith [abs_nonneg (rq d)]
    have := rq_upper (by norm_num) (scale_le hLL (show (1 : ℚ) / 2 ≤ 10201 / 10000 by norm_num)) h4
    nlinarith
  have := rq_upper (by norm_num) (scale_le hLL (show (1 : ℚ) / 2 ≤ 20608 / 10000 by norm_num))
    (show rq (rq dx * rq dx) + rq (rq dy * rq dy) ≤ 20608 / 10000 * (L * L) by
      have := key dx h1; have := key dy h2; linarith)
  unfold lsqR
  nlinarith

/-- The other component of a vector from the point to an end of the side. -/
theorem other_le {ux uy dx dy C L h : ℚ} (h1 : |ux| ≤ |dx|) (h2 : |dy| ≤ L) (h3 : |C| ≤ h * |dx|) (hd : 0 < |dx|)
    (e : uy * dx = ux * dy - C) : |uy| ≤ L + h := by
  have : |uy| * |dx| ≤ (L + h) * |dx| := by
    rw [← abs_mul, e]
    calc |ux * dy - C| ≤ |ux * dy| + |C| := abs_sub _ _
      _ ≤ |dx| * L + h * |dx| := by
          rw [abs_mul]
          exact add_le_add (mul_le_mul h1 h2 (abs_nonneg _) (abs_nonneg _)) h3
      _ = _ := by ring
  exact le_of_mul_le_mul_right this hd

theorem accept_core {ux uy vx vy dx dy τ tol : ℚ} (edx : dx = vx - ux) (edy : dy = vy - uy) (hdy : |dy| ≤ |dx|)
    (hu1 : |ux| ≤ |dx|) (hv1 : |vx| ≤ |dx|) (hC : |ux * vy - uy * vx| ≤ τ / 2 * |dx|) (hL : τ ≤ |dx|)
    (hs : 64 * u * |dx| ≤ τ) (hτ : 1 / 2 ^ 160 ≤ τ) (ht : τ ≤ tol) :
    rq (crossR ux uy vx vy * crossR ux uy vx vy) < rq (rq (tol * lsqR dx dy) * tol) := by
  have hu := u_pos
  have hτ0 : 0 < τ := lt_of_lt_of_le (by positivity) hτ
  have hd0 : 0 < |dx| := lt_of_lt_of_le hτ0 hL
  have hLs := hτ.trans hL
  have a1 : |uy| ≤ |dx| + τ / 2 := other_le hu1 hdy hC hd0 (by rw [edx, edy]; ring)
  have a2 : |vy| ≤ |dx| + τ / 2 := other_le hv1 hdy hC hd0 (by rw [edx, edy]; ring)
  generalize hLdef : |dx| = L at *
  have e := cross_err hu1 hv1 (a1.trans (show L + τ / 2 ≤ 3 / 2 * L by linarith)) (a2.trans (by linarith))
    ((inv_pow_le (by norm_num)).trans hLs)
    ((inv_pow_le (by norm_num)).trans (scale_le hLs (show (1 : ℚ) / 2 ≤ 3 / 2 by norm_num)))
  change |crossR ux uy vx vy - _| ≤ _ at e
  set A := crossR ux uy vx vy
  have hA : |A| ≤ 72 / 100 * (τ * L) := by
    have : |A| ≤ |A - (ux * vy - uy * vx)| + |ux * vy - uy * vx| := by
      have := abs_add_le (A - (ux * vy - uy * vx)) (ux * vy - uy * vx)
      rwa [sub_add_cancel] at this
    have h9 : 9 * u * (L * (3 / 2 * L)) ≤ 22 / 100 * (τ * L) := by
      have := mul_le_mul_of_nonneg_right hs hd0.le
      nlinarith
    nlinarith
  have hτL := inv_pow_mul hτ hLs
  have hsq := inv_pow_mul hτL hτL
  have hAA : A * A ≤ 52 / 100 * (τ * L * (τ * L)) := by
    rw [← abs_mul_abs_self A]
    have : 0 < τ * L := mul_pos hτ0 hd0
    nlinarith [abs_nonneg A]
  have hl := rq_upper (by norm_num) (scale_le hsq (show (1 : ℚ) / 2 ≤ 52 / 100 by norm_num)) hAA
  -- the right hand side
  have hq := lsqR_lower (dx := dx) (dy := dy) hLs hLdef.symm
  have hts := hτ.trans ht
  have ht0 : 0 < tol := lt_of_lt_of_le hτ0 ht
  have hLL := inv_pow_mul hLs hLs
  have htLL := inv_pow_mul hts hLL
  have b1 : 96 / 100 * (tol * (L * L)) ≤ tol * lsqR dx dy := by nlinarith
  have b2 := rq_lower (by norm_num) (scale_le htLL (show (1 : ℚ) / 2 ≤ 96 / 100 by norm_num)) b1
  have b3 : 95 / 100 * (tol * (L * L) * tol) ≤ rq (tol * lsqR dx dy) * tol := by
    have : 95 / 100 * (tol * (L * L)) ≤ rq (tol * lsqR dx dy) := by
      have : 0 < tol * (L * L) := by positivity
      linarith
    nlinarith
  have b4 := rq_lower (by norm_num) (scale_le (inv_pow_mul htLL hts) (show (1 : ℚ) / 2 ≤ 95 / 100 by norm_num)) b3
  have c : τ * L * (τ * L) ≤ tol * (L * L) * tol := by
    have : τ * τ ≤ tol * tol := mul_le_mul ht ht hτ0.le ht0.le
    nlinarith [mul_pos hd0 hd0]
  have : 0 < τ * L * (τ * L) := by positivity
  linarith

theorem sound_core {ux uy vx vy dx dy L h tol : ℚ} (edx : dx = vx - ux) (edy : dy = vy - uy) (hdx : |dx| ≤ L)
    (hdy : |dy| ≤ L) (hdl : L ≤ 103 / 100 * |dx|) (hu1 : |ux| ≤ |dx|) (hv1 : |vx| ≤ |dx|)
    (hC : |ux * vy - uy * vx| = h * |dx|) (h0 : 0 ≤ h) (hs : 64 * u * L ≤ tol) (hL : 1 / 2 ^ 160 ≤ L)
    (ht : 1 / 2 ^ 160 ≤ tol)
    (hn : rq (crossR ux uy vx vy * crossR ux uy vx vy) < rq (rq (tol * lsqR dx dy) * tol)) : h ≤ 2 * tol := by
  have hu := u_pos
  have hu' := u_le
  have hL0 : 0 < L := lt_of_lt_of_le (by positivity) hL
  have ht0 : 0 < tol := lt_of_lt_of_le (by positivity) ht
  have hd0 : 0 < |dx| := by nlinarith
  have a1 : |uy| ≤ L + h := other_le hu1 hdy hC.le hd0 (by rw [edx, edy]; ring)
  have a2 : |vy| ≤ L + h := other_le hv1 hdy hC.le hd0 (by rw [edx, edy]; ring)
  have e := cross_err (hu1.trans hdx) (hv1.trans hdx) a1 a2 ((inv_pow_le (by norm_num)).trans hL)
    ((inv_pow_le (by norm_num)).trans (hL.trans (by linarith)))
  change |crossR ux uy vx vy - _| ≤ _ at e
  set A := crossR ux uy vx vy
  have hq := lsqR_upper hL hdx hdy
  have hLL := inv_pow_mul hL hL
  have htLL := inv_pow_mul ht hLL
  have b1 : tol * lsqR dx dy ≤ 2085 / 1000 * (tol * (L * L)) := by nlinarith
  have b2 := rq_upper (by norm_num) (scale_le htLL (show (1 : ℚ) / 2 ≤ 2085 / 1000 by norm_num)) b1
  have b3 : rq (tol * lsqR dx dy) * tol ≤ 211 / 100 * (tol * (L * L) * tol) := by
    have : rq (tol * lsqR dx dy) ≤ 211 / 100 * (tol * (L * L)) := by
      have : 0 < tol * (L * L) := by positivity
      linarith
    nlinarith
  have b4 := rq_upper (by norm_num) (scale_le (inv_pow_mul htLL ht) (show (1 : ℚ) / 2 ≤ 211 / 100 by norm_num)) b3
  have hA : |A| ≤ 148 / 100 * (tol * L) := by
    by_contra hcon
    push Not at hcon
    have hpos : 0 < tol * L := by positivity
    have c1 : 219 / 100 * (tol * (L * L) * tol) ≤ A * A := by
      rw [← abs_mul_abs_self A]
      have : 148 / 100 * (tol * L) * (148 / 100 * (tol * L)) ≤ |A| * |A| :=
        mul_le_mul hcon.le hcon.le (by positivity) (abs_nonneg _)
      have e1 : tol * (L * L) * tol = tol * L * (tol * L) := by ring
      have e2 : 0 < tol * L * (tol * L) := by positivity
      rw [e1]
      linarith
    have c2 := rq_lower (by norm_num) (scale_le (inv_pow_mul htLL ht) (show (1 : ℚ) / 2 ≤ 219 / 100 by norm_num)) c1
    have : 0 < tol * (L * L) * tol := by positivity
    linarith
  have hCb : h * |dx| ≤ 148 / 100 * (tol * L) + 9 * u * (L * (L + h)) := by
    rw [← hC]
    have := abs_sub_abs_le_abs_sub (ux * vy - uy * vx) A
    rw [abs_sub_comm _ A] at this
    linarith
  have hCb2 : h * |dx| ≤ (148 / 100 * tol + 9 * u * (L + h)) * (103 / 100 * |dx|) := by
    refine hCb.trans ?_
    have : 148 / 100 * (tol * L) + 9 * u * (L * (L + h)) = (148 / 100 * tol + 9 * u * (L + h)) * L := by ring
    rw [this]
    exact mul_le_mul_of_nonneg_left hdl (by positivity)
  have hfin : h ≤ (148 / 100 * tol + 9 * u * (L + h)) * (103 / 100) := by
    have : h * |dx| ≤ (148 / 100 * tol + 9 * u * (L + h)) * (103 / 100) * |dx| := by rw [mul_assoc]; exact hCb2
    exact le_of_mul_le_mul_right this hd0
  have : u * h ≤ 1 / 1000000 * h := mul_le_mul_of_nonneg_right hu' h0
  nlinarith

/-! ## Sides -/

theorem Clear.swap {a b : Pt ℚ} (h : Clear a b) : Clear b a := by
  unfold Clear; rw [abs_sub_comm a.y, abs_sub_comm a.x]; exact h

/-- In the range of the side along its longest direction. -/
def InRange (p a b : Pt ℚ) : Prop :=
  (|b.y - a.y| ≤ |b.x - a.x| ∧ min a.x b.x ≤ p.x ∧ p.x ≤ max a.x b.x) ∨
    (|b.x - a.x| < |b.y - a.y| ∧ min a.y b.y ≤ p.y ∧ p.y ≤ max a.y b.y)

theorem slack_small {M D : ℚ} (hM : 1 / 2 ^ 100 ≤ M) (hD : 0 ≤ D) : 1 / 2 ^ 160 ≤ slack M D := by
  rw [slack_eq]
  have hu := u_pos
  have : 8 * u * (1 / 2 ^ 100) ≤ 8 * u * M := mul_le_mul_of_nonneg_left hM (by positivity)
  have h2 : (1 : ℚ) / 2 ^ 160 ≤ 8 * u * (1 / 2 ^ 100) := by unfold u; norm_num
  have : 0 ≤ 64 * u * D := by positivity
  linarith

theorem slack_ge {M D : ℚ} (hM : 0 ≤ M) : 64 * u * D ≤ slack M D := by
  rw [slack_eq]
  have hu := u_pos
  have : 0 ≤ 8 * u * M := by positivity
  linarith

theorem between_abs {x a b : ℚ} (h1 : min a b ≤ x) (h2 : x ≤ max a b) : |a - x| ≤ |b - a| ∧ |b - x| ≤ |b - a| := by
  rcases le_total a b with h | h
  · rw [min_eq_left h] at h1; rw [max_eq_right h] at h2
    rw [abs_of_nonneg (show 0 ≤ b - a by linarith), abs_le, abs_le]
    refine ⟨⟨?_, ?_⟩, ?_, ?_⟩ <;> linarith
  · rw [min_eq_right h] at h1; rw [max_eq_left h] at h2
    rw [abs_of_nonpos (show b - a ≤ 0 by linarith), abs_le, abs_le]
    refine ⟨⟨?_, ?_⟩, ?_, ?_⟩ <;> linarith

theorem GoodSide.D_nonneg {M D : ℚ} {a b : Pt ℚ} (h : GoodSide M D a b) : 0 ≤ D := (abs_nonneg _).trans h.dx_le

/-- A point in the range of the side and close to its line passes the first part of the test. -/
theorem cross_accept {M D tol : ℚ} {p a b : Pt ℚ} (hg : GoodSide M D a b) (hM : 1 / 2 ^ 100 ≤ M)
    (ht : slack M D ≤ tol) (hr : InRange p a b)
    (hx : |orient a b p| ≤ slack M D / 2 * |b.x - a.x| ∨ |orient a b p| ≤ slack M D / 2 * |b.y - a.y|) :
    rq (crossF p a b * crossF p a b) < rq (rq (tol * lsqF a b) * tol) := by
  have hM0 : 0 ≤ M := le_trans (by positivity) hM
  have hD0 := hg.D_nonneg
  have hs := slack_small hM hD0
  have hs0 : 0 < slack M D := lt_of_lt_of_le (by positivity) hs
  have hu := u_pos
  have hsl := slack_ge (D := D) hM0
  have e1 : crossF p a b = crossR (a.x - p.x) (a.y - p.y) (b.x - p.x) (b.y - p.y) := rfl
  have e2 : lsqF a b = lsqR (b.x - a.x) (b.y - a.y) := rfl
  have eo : (a.x - p.x) * (b.y - p.y) - (a.y - p.y) * (b.x - p.x) = orient a b p := by unfold orient; ring
  rcases hr with ⟨r1, r2, r3⟩ | ⟨r1, r2, r3⟩
  · have hxx : |orient a b p| ≤ slack M D / 2 * |b.x - a.x| := by
      rcases hx with h | h
      · exact h
      · exact h.trans (mul_le_mul_of_nonneg_left r1 (by linarith))
    have hlong : slack M D ≤ |b.x - a.x| := by
      rcases hg.long with h | h
      · exact h
      · exact h.trans r1
    have hb := between_abs r2 r3
    rw [e1, e2]
    refine accept_core (by ring) (by ring) r1 hb.1 hb.2 ?_ hlong ?_ hs ht
    · rw [eo]; exact hxx
    · exact (mul_le_mul_of_nonneg_left hg.dx_le (by positivity)).trans hsl
  · have hxx : |orient a b p| ≤ slack M D / 2 * |b.y - a.y| := by
      rcases hx with h | h
      · exact h.trans (mul_le_mul_of_nonneg_left r1.le (by linarith))
      · exact h
    have hlong : slack M D ≤ |b.y - a.y| := by
      rcases hg.long with h | h
      · exact h.trans r1.le
      · exact h
    have hb := between_abs r2 r3
    have := accept_core (ux := a.y - p.y) (uy := a.x - p.x) (vx := b.y - p.y) (vy := b.x - p.x)
      (dx := b.y - a.y) (dy := b.x - a.x) (τ := slack M D) (tol := tol) (by ring) (by ring) r1.le hb.1 hb.2 (by
        rw [show (a.y - p.y) * (b.x - p.x) - (a.x - p.x) * (b.y - p.y) = - orient a b p by unfold orient; ring, abs_neg]
        exact hxx) hlong ((mul_le_mul_of_nonneg_left hg.dy_le (by positivity)).trans hsl) hs ht
    rw [crossR_swap, lsqR_swap, neg_mul_neg] at this
    rw [e1, e2]
    exact this

/-- A point in the range of the side and close to its line passes the test. -/
theorem near_accept {M D tol : ℚ} {p a b : Pt ℚ} (hg : GoodSide M D a b) (hc : Clear a b) (hM : 1 / 2 ^ 100 ≤ M)
    (ht : slack M D ≤ tol) (hr : InRange p a b)
    (hx : |orient a b p| ≤ slack M D / 2 * |b.x - a.x| ∨ |orient a b p| ≤ slack M D / 2 * |b.y - a.y|) :
    NearF tol p (a, b) := by
  refine ⟨cross_accept hg hM ht hr hx, ?_⟩
  have hs := slack_small hM hg.D_nonneg
  have hs0 : 0 < slack M D := lt_of_lt_of_le (by positivity) hs
  have hu := u_pos
  have hu2 := u_le
  rcases hr with ⟨r1, r2, r3⟩ | ⟨r1, r2, r3⟩
  · exact Or.inl ⟨rq_mono r1, r2, r3⟩
  · have hlong : slack M D ≤ |b.y - a.y| := by
      rcases hg.long with h | h
      · exact h.trans r1.le
      · exact h
    refine Or.inr ⟨?_, r2, r3⟩
    have hcl := hc.resolve_left (not_le.2 r1)
    have hyL : 1 / 2 ^ 1000 ≤ |b.y - a.y| := (inv_pow_le (by norm_num)).trans (hs.trans hlong)
    have q1 := rq_abs (x := |b.x - a.x|) (R := |b.y - a.y|) (by rw [abs_abs]; exact r1.le) hyL
    have q2 := rq_abs (x := |b.y - a.y|) (R := |b.y - a.y|) (by rw [abs_abs]) hyL
    rw [abs_le] at q1 q2
    have h50 : (1 : ℚ) / 2 ^ 50 = 8 * u := by unfold u; norm_num
    rw [h50] at hcl
    have : |b.x - a.x| < (1 - 2 * u) * |b.y - a.y| := by
      by_contra hcon
      push Not at hcon
      have h1 : (1 + 8 * u) * ((1 - 2 * u) * |b.y - a.y|) ≤ (1 + 8 * u) * |b.x - a.x| :=
        mul_le_mul_of_nonneg_left hcon (by linarith)
      have h2 : 0 < |b.y - a.y| := lt_of_lt_of_le hs0 hlong
      have h3 : |b.y - a.y| ≤ (1 + 8 * u) * ((1 - 2 * u) * |b.y - a.y|) := by
        have : (1 + 8 * u) * ((1 - 2 * u) * |b.y - a.y|) = |b.y - a.y| + (6 * u - 16 * (u * u)) * |b.y - a.y| := by ring
        rw [this]
        have : u * u ≤ 1 / 1000000 * u := mul_le_mul_of_nonneg_right hu2 hu.le
        have : 0 ≤ (6 * u - 16 * (u * u)) * |b.y - a.y| := mul_nonneg (by linarith) h2.le
        linarith
      linarith
    linarith

/-- A point of the segment from `a` to `b`. -/
theorem on_segment_x {a b : Pt ℚ} {x : ℚ} (h1 : min a.x b.x ≤ x) (h2 : x ≤ max a.x b.x) (h : b.x - a.x ≠ 0) :
    ∃ s : ℚ, 0 ≤ s ∧ s ≤ 1 ∧ (lineAt a b s).x = x ∧ (b.x - a.x) * (lineAt a b s).y =
      (b.x - a.x) * a.y + (x - a.x) * (b.y - a.y) := by
  refine ⟨(x - a.x) / (b.x - a.x), ?_, ?_, ?_, ?_⟩
  · rcases lt_or_gt_of_ne h with h' | h'
    · rw [min_eq_right (by linarith)] at h1; rw [max_eq_left (by linarith)] at h2
      exact div_nonneg_of_nonpos (by linarith) h'.le
    · rw [min_eq_left (by linarith)] at h1; rw [max_eq_right (by linarith)] at h2
      exact div_nonneg (by linarith) h'.le
  · rcases lt_or_gt_of_ne h with h' | h'
    · rw [min_eq_right (by linarith)] at h1; rw [max_eq_left (by linarith)] at h2
      rw [div_le_one_of_neg h']; linarith
    · rw [min_eq_left (by linarith)] at h1; rw [max_eq_right (by linarith)] at h2
      rw [div_le_one h']; linarith
  · unfold lineAt; simp only; field_simp; ring
  · unfold lineAt; simp only; field_simp

theorem on_segment_y {a b : Pt ℚ} {y : ℚ} (h1 : min a.y b.y ≤ y) (h2 : y ≤ max a.y b.y) (h : b.y - a.y ≠ 0) :
    ∃ s : ℚ, 0 ≤ s ∧ s ≤ 1 ∧ (lineAt a b s).y = y ∧ (b.y - a.y) * (lineAt a b s).x =
      (b.y - a.y) * a.x + (y - a.y) * (b.x - a.x) := by
  obtain ⟨s, h3, h4, h5, h6⟩ := on_segment_x (a := ⟨a.y, a.x⟩) (b := ⟨b.y, b.x⟩) (x := y) h1 h2 h
  exact ⟨s, h3, h4, h5, h6⟩

/-- The computed lengths tell which direction is the longest, up to a few percent. -/
theorem dominant {τ x y : ℚ} (hτ : 1 / 2 ^ 160 ≤ τ) (hl : τ ≤ |x| ∨ τ ≤ |y|) (h : rq |y| ≤ rq |x|) :
    τ / 2 ≤ |x| ∧ |y| ≤ 103 / 100 * |x| ∧ 0 < |x| := by
  have hτ0 : 0 < τ := lt_of_lt_of_le (by positivity) hτ
  have hx : ∀ z : ℚ, 1 / 2 ^ 160 ≤ |z| → 99 / 100 * |z| ≤ rq |z| ∧ rq |z| ≤ 101 / 100 * |z| := fun z hz =>
    rq_between ((inv_pow_le (by norm_num)).trans hz)
  have hhalf : 1 / 2 ^ 160 ≤ |x| → τ ≤ |y| → |y| ≤ 103 / 100 * |x| := by
    intro h1 h2
    have := (hx x h1).2
    have := (hx y (hτ.trans h2)).1
    have := abs_nonneg x
    linarith
  have hbig : τ ≤ |y| → 98 / 100 * |y| ≤ |x| := by
    intro h2
    have h3 := (hx y (hτ.trans h2)).1
    by_contra hcon
    push Not at hcon
    have h5 := rq_upper (by norm_num) (scale_le (hτ.trans h2) (show (1 : ℚ) / 2 ≤ 98 / 100 by norm_num)) hcon.le
    have : 0 < |y| := by linarith
    linarith
  rcases hl with h1 | h1
  · refine ⟨by linarith, ?_, by linarith⟩
    by_cases h2 : τ ≤ |y|
    · exact hhalf (hτ.trans h1) h2
    · push Not at h2; linarith
  · have := hbig h1
    refine ⟨by linarith, by linarith, by linarith⟩

/-- A point that passes the test is close to the segment. -/
theorem near_sound {M D tol : ℚ} {p a b : Pt ℚ} (hg : GoodSide M D a b) (hM : 1 / 2 ^ 100 ≤ M)
    (ht : slack M D ≤ tol) (hn : NearF tol p (a, b)) :
    ∃ s : ℚ, 0 ≤ s ∧ s ≤ 1 ∧ |p.x - (lineAt a b s).x| ≤ 2 * tol ∧ |p.y - (lineAt a b s).y| ≤ 2 * tol := by
  have hM0 : 0 ≤ M := le_trans (by positivity) hM
  have hD0 := hg.D_nonneg
  have hs := slack_small hM hD0
  have hs0 : 0 < slack M D := lt_of_lt_of_le (by positivity) hs
  have hu := u_pos
  have hsl := slack_ge (D := D) hM0
  have hts := hs.trans ht
  have ht0 : 0 < tol := lt_of_lt_of_le (by positivity) hts
  have e1 : crossF p a b = crossR (a.x - p.x) (a.y - p.y) (b.x - p.x) (b.y - p.y) := rfl
  have e2 : lsqF a b = lsqR (b.x - a.x) (b.y - a.y) := rfl
  have hLD : max |b.x - a.x| |b.y - a.y| ≤ D := max_le hg.dx_le hg.dy_le
  have hLlong : slack M D ≤ max |b.x - a.x| |b.y - a.y| := le_max_iff.2 hg.long
  have h64 : 64 * u * max |b.x - a.x| |b.y - a.y| ≤ tol :=
    ((mul_le_mul_of_nonneg_left hLD (by positivity)).trans hsl).trans ht
  obtain ⟨hn1, hb⟩ := hn
  simp only [e1, e2] at hn1
  rcases hb with ⟨r1, r2, r3⟩ | ⟨r1, r2, r3⟩
  · obtain ⟨_, d2, d3⟩ := dominant hs hg.long r1
    obtain ⟨s, s0, s1, sx, sy⟩ := on_segment_x r2 r3 (abs_pos.1 d3)
    refine ⟨s, s0, s1, by rw [sx]; simpa using by linarith, ?_⟩
    have hb := between_abs r2 r3
    refine sound_core (L := max |b.x - a.x| |b.y - a.y|) (by ring) (by ring) (le_max_left _ _) (le_max_right _ _)
      (max_le (by linarith) d2) hb.1 hb.2 ?_ (abs_nonneg _) h64 (hs.trans hLlong) hts hn1
    rw [← abs_mul]
    rw [show (p.y - (lineAt a b s).y) * (b.x - a.x) = (b.x - a.x) * p.y - (b.x - a.x) * (lineAt a b s).y by ring, sy]
    congr 1
    ring
  · obtain ⟨_, d2, d3⟩ := dominant hs hg.long.symm r1.le
    obtain ⟨s, s0, s1, sx, sy⟩ := on_segment_y r2 r3 (abs_pos.1 d3)
    refine ⟨s, s0, s1, ?_, by rw [sx]; simpa using by linarith⟩
    have hb := between_abs r2 r3
    rw [← neg_mul_neg, ← crossR_swap, ← lsqR_swap] at hn1
    refine sound_core (L := max |b.x - a.x| |b.y - a.y|) (by ring) (by ring) (le_max_right _ _) (le_max_left _ _)
      (max_le d2 (by linarith)) hb.1 hb.2 ?_ (abs_nonneg _) h64 (hs.trans hLlong) hts hn1
    rw [← abs_mul]
    rw [show (p.x - (lineAt a b s).x) * (b.y - a.y) = (b.y - a.y) * p.x - (b.y - a.y) * (lineAt a b s).x by ring, sy]
    congr 1
    ring

end Celltree.Fl
