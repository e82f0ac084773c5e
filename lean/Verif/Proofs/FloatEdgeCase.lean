import Verif.Proofs.FloatWachspress

/-!
# The Wachspress weights of a point near a side, in binary64
-/

set_option linter.unusedSectionVars false

namespace Celltree.Fl

theorem sq_err {x : ℚ} (hx : |x| ≤ 2 ^ 200) : |rq (rq x * rq x) - x * x| ≤ 4 * u * (x * x) + 1 / 2 ^ 790 := by
  have hu := u_pos
  have hu' := u_le
  have he := eta_pos
  have e1 := rq_err_add x
  have e2 := rq_err_add (rq x * rq x)
  have x0 := abs_nonneg x
  have hxx : x * x = |x| * |x| := (abs_mul_abs_self x).symm
  have hrr : rq x * rq x = |rq x| * |rq x| := (abs_mul_abs_self _).symm
  have hd := (abs_abs_sub_abs_le_abs_sub (rq x) x).trans e1
  obtain ⟨d1, d2⟩ := abs_le.1 hd
  have hsmall : |x| * eta ≤ 1 / 2 ^ 800 := by
    have h1 : |x| * eta ≤ 2 ^ 200 * eta := mul_le_mul_of_nonneg_right hx he.le
    have h2 : (2 : ℚ) ^ 200 * eta ≤ 1 / 2 ^ 800 := by
      have : eta ≤ 1 / 2 ^ 1000 := by unfold eta; exact inv_pow_le (by norm_num)
      refine (mul_le_mul_of_nonneg_left this (by positivity)).trans (le_of_eq ?_)
      rw [show (1000 : ℕ) = 800 + 200 from rfl, pow_add, ← div_div, mul_div_cancel₀ _ (by positivity)]
    exact h1.trans h2
  have hee : eta ≤ 1 / 2 ^ 800 := by unfold eta; exact inv_pow_le (by norm_num)
  have hone : (1 : ℚ) / 2 ^ 800 ≤ 1 / 2 ^ 0 := inv_pow_le (by norm_num)
  have h10 : 8 * ((1 : ℚ) / 2 ^ 800) ≤ 1 / 2 ^ 790 := by
    have : (1 : ℚ) / 2 ^ 790 = 1 / 2 ^ 800 * 2 ^ 10 := by
      rw [show (800 : ℕ) = 790 + 10 from rfl, pow_add, ← div_div, div_mul_cancel₀ _ (by positivity)]
    rw [this]
    have : (0 : ℚ) < 1 / 2 ^ 800 := by positivity
    linarith
  rw [pow_zero, div_one] at hone
  clear hx
  generalize (1 : ℚ) / 2 ^ 800 = z at *
  generalize (1 : ℚ) / 2 ^ 790 = z' at *
  generalize eta = et at *
  have h1 : |rq x * rq x - x * x| ≤ 5 / 2 * u * (x * x) + 4 * z := by
    rw [hrr, hxx]
    have r0 := abs_nonneg (rq x)
    set a := |x|
    set b := |rq x|
    have hz : 0 ≤ z := by linarith
    have e : b * b - a * a = (b - a) * (b + a) := by ring
    rw [e, abs_mul, abs_of_nonneg (show 0 ≤ b + a by linarith)]
    have : |b - a| * (b + a) ≤ (u * a + et) * ((2 + u) * a + et) :=
      mul_le_mul hd (by linarith) (by linarith) (by positivity)
    refine this.trans ?_
    have k1 : u * (u * (a * a)) ≤ 1 / 1000000 * (u * (a * a)) := mul_le_mul_of_nonneg_right hu' (by positivity)
    have k2 : et * et ≤ z * 1 := mul_le_mul hee (by linarith) he.le hz
    have k3 : u * (a * et) ≤ 1 / 1000000 * z := mul_le_mul hu' hsmall (by positivity) (by norm_num)
    have k4 : 0 ≤ u * (a * a) := by positivity
    linarith
  obtain ⟨g1, g2⟩ := abs_le.1 h1
  have hsq : 0 ≤ x * x := mul_self_nonneg x
  have hrq : 0 ≤ rq x * rq x := mul_self_nonneg _
  rw [abs_of_nonneg hrq] at e2
  have h2 : u * (rq x * rq x) ≤ u * (11 / 10 * (x * x) + 4 * z) := by
    refine mul_le_mul_of_nonneg_left ?_ hu.le
    have : 5 / 2 * u * (x * x) ≤ 1 / 10 * (x * x) := mul_le_mul_of_nonneg_right (by linarith) hsq
    linarith
  have h3 : u * z ≤ 1 / 1000000 * z := mul_le_mul_of_nonneg_right hu' (by linarith)
  have h4 : 0 ≤ u * (x * x) := mul_nonneg hu.le hsq
  obtain ⟨f1, f2⟩ := abs_le.1 e2
  rw [abs_le]
  constructor <;> linarith

theorem lsqR_err {x y : ℚ} (hx : |x| ≤ 2 ^ 200) (hy : |y| ≤ 2 ^ 200) :
    |lsqR x y - (x * x + y * y)| ≤ 6 * u * (x * x + y * y) + 1 / 2 ^ 780 := by
  have hu := u_pos
  have hu' := u_le
  have e1 := sq_err hx
  have e2 := sq_err hy
  have e3 := rq_err_add (rq (rq x * rq x) + rq (rq y * rq y))
  have hee : eta ≤ 1 / 2 ^ 790 := by unfold eta; exact inv_pow_le (by norm_num)
  have h10 : 8 * ((1 : ℚ) / 2 ^ 790) ≤ 1 / 2 ^ 780 := by
    have : (1 : ℚ) / 2 ^ 780 = 1 / 2 ^ 790 * 2 ^ 10 := by
      rw [show (790 : ℕ) = 780 + 10 from rfl, pow_add, ← div_div, div_mul_cancel₀ _ (by positivity)]
    rw [this]
    have : (0 : ℚ) < 1 / 2 ^ 790 := by positivity
    linarith
  have hz0 : (0 : ℚ) ≤ 1 / 2 ^ 790 := by positivity
  generalize (1 : ℚ) / 2 ^ 790 = z at *
  generalize (1 : ℚ) / 2 ^ 780 = z' at *
  have hx0 := mul_self_nonneg x
  have hy0 := mul_self_nonneg y
  have p1 : 0 ≤ rq (rq x * rq x) := rq_nonneg (mul_self_nonneg _)
  have p2 : 0 ≤ rq (rq y * rq y) := rq_nonneg (mul_self_nonneg _)
  rw [abs_of_nonneg (add_nonneg p1 p2)] at e3
  change |lsqR x y - _| ≤ _ at e3
  obtain ⟨a1, a2⟩ := abs_le.1 e1
  obtain ⟨b1, b2⟩ := abs_le.1 e2
  obtain ⟨c1, c2⟩ := abs_le.1 e3
  have h1 : u * (rq (rq x * rq x) + rq (rq y * rq y)) ≤ u * (11 / 10 * (x * x + y * y) + 2 * z) := by
    refine mul_le_mul_of_nonneg_left ?_ hu.le
    have : 4 * u * (x * x + y * y) ≤ 1 / 10 * (x * x + y * y) := mul_le_mul_of_nonneg_right (by linarith) (by linarith)
    linarith
  have h3 : u * z ≤ 1 / 1000000 * z := mul_le_mul_of_nonneg_right hu' hz0
  have h4 : 0 ≤ u * (x * x + y * y) := mul_nonneg hu.le (by linarith)
  rw [abs_le]
  constructor <;> linarith

/-- The computed length of a vector that is not extremely short. -/
theorem len_fl {x y : ℚ} (hx : |x| ≤ 2 ^ 200) (hy : |y| ≤ 2 ^ 200) (hL : 1 / 2 ^ 160 ≤ |x| ∨ 1 / 2 ^ 160 ≤ |y|) :
    ∃ r, env.sqrt (fin (lsqR x y)) = fin r ∧ 1 / 2 ^ 162 ≤ r ∧ (1 - 14 * u) * (r * r) ≤ x * x + y * y ∧
      x * x + y * y ≤ (1 + 14 * u) * (r * r) := by
  have hu := u_pos
  have hu' := u_le
  have hN : 1 / 2 ^ (160 + 160) ≤ x * x + y * y := by
    rcases hL with h | h
    · have := inv_pow_mul h h
      rw [abs_mul_abs_self] at this
      exact this.trans (by linarith [mul_self_nonneg y])
    · have := inv_pow_mul h h
      rw [abs_mul_abs_self] at this
      exact this.trans (by linarith [mul_self_nonneg x])
  have hup : x * x + y * y ≤ 2 ^ 401 := by
    have h1 : |x * x| ≤ 2 ^ (200 + 200) := abs_mul_le_pow hx hx
    have h2 : |y * y| ≤ 2 ^ (200 + 200) := abs_mul_le_pow hy hy
    exact (le_abs_self _).trans (abs_add_le_pow h1 h2)
  have hN0 : 0 < x * x + y * y := lt_of_lt_of_le (by positivity) hN
  have e := lsqR_err hx hy
  have htiny : 1 / 2 ^ 780 ≤ u * (x * x + y * y) := by
    have h1 : (1 : ℚ) / 2 ^ 780 ≤ 1 / 2 ^ (53 + (160 + 160)) := inv_pow_le (by norm_num)
    have h2 : 1 / 2 ^ (53 + (160 + 160)) ≤ u * (x * x + y * y) := inv_pow_mul (by unfold u; norm_num) hN
    exact h1.trans h2
  set N := x * x + y * y with hNd
  set X := lsqR x y with hXd
  obtain ⟨X1, X2⟩ := abs_le.1 e
  have hXl : (1 - 7 * u) * N ≤ X := by linarith
  have hXu : X ≤ (1 + 7 * u) * N := by linarith
  have hX0 : 0 < X := by nlinarith
  have hX900 : X ≤ 2 ^ 900 := by
    have h1 : (1 + 7 * u) * N ≤ 2 * 2 ^ 401 := mul_le_mul (by linarith) hup hN0.le (by norm_num)
    have h2 : (2 : ℚ) * 2 ^ 401 ≤ 2 ^ 900 := by
      rw [mul_comm, ← pow_succ]; exact pow_le_pow_right₀ (by norm_num) (by norm_num)
    exact hXu.trans (h1.trans h2)
  obtain ⟨r, r1, r2, r3, r4⟩ := sqrt_fl hX0.le hX900
  have hlow : 1 / 2 ^ 162 ≤ r := by
    have h1 := r4 (1 / 2 ^ 161) (by positivity) (by
      have e1 : (1 : ℚ) / 2 ^ 161 * (1 / 2 ^ 161) = 1 / 4 * (1 / 2 ^ (160 + 160)) := by
        rw [div_mul_div_comm, one_mul, ← pow_add, show (161 + 161 : ℕ) = (160 + 160) + 2 from rfl, pow_add (2 : ℚ) (160 + 160) 2]
        generalize (2 : ℚ) ^ (160 + 160) = z
        ring
      rw [e1]
      have : 1 / 4 * N ≤ (1 - 7 * u) * N := mul_le_mul_of_nonneg_right (by linarith) hN0.le
      linarith)
    have h2 : (1 : ℚ) / 2 ^ 500 ≤ 1 / 2 ^ 164 := inv_pow_le (by norm_num)
    have h3 : (1 : ℚ) / 2 ^ 162 = 1 / 2 ^ 161 / 2 := by norm_num
    have h4 : (1 : ℚ) / 2 ^ 164 = 1 / 2 ^ 161 / 8 := by norm_num
    rw [h4] at h2
    rw [h3]
    have h5 : (0 : ℚ) < 1 / 2 ^ 161 := by positivity
    generalize (1 : ℚ) / 2 ^ 161 = z at *
    generalize (1 : ℚ) / 2 ^ 500 = z' at *
    have h6 : u * z ≤ 1 / 1000000 * z := mul_le_mul_of_nonneg_right hu' h5.le
    linarith
  have hr0 : 0 < r := lt_of_lt_of_le (by positivity) hlow
  have heps : 1 / 2 ^ 500 ≤ u * r := by
    have h1 : (1 : ℚ) / 2 ^ 500 ≤ 1 / 2 ^ (53 + 162) := inv_pow_le (by norm_num)
    exact h1.trans (inv_pow_mul (by unfold u; norm_num) hlow)
  have hur : 0 < u * r := mul_pos hu hr0
  have huur0 : 0 ≤ u * (u * r) := by positivity
  have huur : u * (u * r) ≤ 1 / 1000000 * (u * r) := mul_le_mul_of_nonneg_right hu' hur.le
  have b1 : X ≤ (1 + 3 * u) * r * ((1 + 3 * u) * r) := by
    by_contra hc
    have := r4 ((1 + 3 * u) * r) (by positivity) (not_le.1 hc).le
    generalize (1 : ℚ) / 2 ^ 500 = z at *
    linarith
  have b2 : (1 - 3 * u) * r * ((1 - 3 * u) * r) ≤ X := by
    by_contra hc
    have := r3 ((1 - 3 * u) * r) (mul_nonneg (by linarith) hr0.le) (not_le.1 hc).le
    generalize (1 : ℚ) / 2 ^ 500 = z at *
    linarith
  refine ⟨r, r1, hlow, ?_, ?_⟩
  · have hrr : 0 < r * r := mul_pos hr0 hr0
    have h1 : (1 - 7 * u) * (r * r) ≤ (1 - 3 * u) * r * ((1 - 3 * u) * r) := by
      have : 0 ≤ (u + 9 * u * u) * (r * r) := by positivity
      linarith
    have h2 : (1 - 14 * u) * (r * r) * (1 + 7 * u) ≤ (1 - 7 * u) * (r * r) := by
      have : 0 ≤ (98 * u * u) * (r * r) := by positivity
      linarith
    have h3 : (1 - 14 * u) * (r * r) * (1 + 7 * u) ≤ N * (1 + 7 * u) := by linarith
    exact le_of_mul_le_mul_right h3 (by linarith)
  · have hrr : 0 < r * r := mul_pos hr0 hr0
    have h1 : (1 + 3 * u) * r * ((1 + 3 * u) * r) ≤ (1 + 13 / 2 * u) * (r * r) := by
      have : 0 ≤ (u * (1 / 2 - 9 * u)) * (r * r) := mul_nonneg (mul_nonneg hu.le (by linarith)) hrr.le
      linarith
    have h2 : (1 + 13 / 2 * u) * (r * r) ≤ (1 + 14 * u) * (r * r) * (1 - 7 * u) := by
      have : 0 ≤ (u * (1 / 2 - 98 * u)) * (r * r) := mul_nonneg (mul_nonneg hu.le (by linarith)) hrr.le
      linarith
    have h3 : N * (1 - 7 * u) ≤ (1 + 14 * u) * (r * r) * (1 - 7 * u) := by linarith
    exact le_of_mul_le_mul_right h3 (by linarith)

theorem sq_fl {a p : Pt ℚ} (ha : Bnd (2 ^ 199) a) (hp : Bnd (2 ^ 199) p) :
    dot (toVector (fp a) (fp p)) (toVector (fp a) (fp p)) = fin (lsqR (p.x - a.x) (p.y - a.y)) := by
  unfold dot toVector fp lsqR
  simp only
  have v1 := abs_sub_le_pow hp.1 ha.1
  have v2 := abs_sub_le_pow hp.2 ha.2
  rw [sub_fin (by norm_num) v1, sub_fin (by norm_num) v2]
  have v1 := abs_rq_le v1
  have v2 := abs_rq_le v2
  have m1 := abs_mul_le_pow v1 v1
  have m2 := abs_mul_le_pow v2 v2
  rw [mul_fin (by norm_num) m1, mul_fin (by norm_num) m2]
  have m1 := abs_rq_le m1
  have m2 := abs_rq_le m2
  rw [add_fin (by norm_num) (abs_add_le_pow m1 m2)]

theorem ratio_upper {T ν ρ V2 Y r z z' : ℚ} (hT0 : 0 ≤ T) (hν : 0 ≤ ν) (hρ0 : 0 < ρ) (htiny : z ≤ 1 / 2 * (u * u * (ρ * ρ)))
    (heps : z' ≤ u * ρ) (Y2 : Y - V2 ≤ 6 * u * V2 + z) (hVu : V2 ≤ (T * T + ν * ν) * ((1 + 14 * u) * (ρ * ρ)))
    (r3 : ∀ y, 0 ≤ y → Y ≤ y * y → r ≤ (1 + u) * y + z') : r ≤ ((T + ν + u) * (1 + 14 * u) + u) * ρ := by
  have hu := u_pos
  have hu' := u_le
  have hρρ : 0 < ρ * ρ := mul_pos hρ0 hρ0
  have hs0 : 0 ≤ T * T + ν * ν := add_nonneg (mul_self_nonneg _) (mul_self_nonneg _)
  have hsρ : 0 ≤ (T * T + ν * ν) * (ρ * ρ) := mul_nonneg hs0 hρρ.le
  have h1 := r3 ((T + ν + u) * (1 + 12 * u) * ρ) (by positivity) (by
    have g1 : Y ≤ (1 + 21 * u) * ((T * T + ν * ν) * (ρ * ρ)) + z := by
      have : (1 + 6 * u) * V2 ≤ (1 + 6 * u) * ((T * T + ν * ν) * ((1 + 14 * u) * (ρ * ρ))) := mul_le_mul_of_nonneg_left hVu (by linarith)
      have h2 : 0 ≤ u * (1 - 84 * u) * ((T * T + ν * ν) * (ρ * ρ)) := mul_nonneg (mul_nonneg hu.le (by linarith)) hsρ
      linarith
    have g2 : (1 + 24 * u) * ((T * T + ν * ν) * (ρ * ρ)) + u * u * (ρ * ρ) ≤
        (T + ν + u) * (1 + 12 * u) * ρ * ((T + ν + u) * (1 + 12 * u) * ρ) := by
      have e1 : (T + ν + u) * (1 + 12 * u) * ρ * ((T + ν + u) * (1 + 12 * u) * ρ) =
        ((T + ν + u) * (T + ν + u)) * ((1 + 12 * u) * (1 + 12 * u)) * (ρ * ρ) := by ring
      have e2 : (1 + 24 * u) * ((T * T + ν * ν) * (ρ * ρ)) + u * u * (ρ * ρ) = ((T * T + ν * ν) * (1 + 24 * u) + u * u) * (ρ * ρ) := by ring
      rw [e1, e2]
      refine mul_le_mul_of_nonneg_right ?_ hρρ.le
      have k1 : T * T + ν * ν + u * u ≤ (T + ν + u) * (T + ν + u) := by
        have := mul_nonneg hT0 hν
        have := mul_nonneg hT0 hu.le
        have := mul_nonneg hν hu.le
        linarith
      have k2 : (1 + 24 * u) ≤ (1 + 12 * u) * (1 + 12 * u) := by nlinarith
      have k3 : (T * T + ν * ν + u * u) * (1 + 24 * u) ≤ (T + ν + u) * (T + ν + u) * ((1 + 12 * u) * (1 + 12 * u)) :=
        mul_le_mul k1 k2 (by linarith) (by positivity)
      have k4 : 0 ≤ u * u * u := by positivity
      linarith
    have g3 : 0 ≤ 3 * u * ((T * T + ν * ν) * (ρ * ρ)) := by positivity
    have g4 : 0 ≤ u * u * (ρ * ρ) := by positivity
    linarith)
  refine h1.trans ?_
  have g5 : (1 + u) * ((T + ν + u) * (1 + 12 * u) * ρ) ≤ (T + ν + u) * (1 + 14 * u) * ρ := by
    have : 0 ≤ (T + ν + u) * (u * (1 - 12 * u)) * ρ := mul_nonneg (mul_nonneg (by positivity) (mul_nonneg hu.le (by linarith))) hρ0.le
    linarith
  linarith

theorem ratio_lower {T ν ρ V2 Y r z z' : ℚ} (hT0 : 0 ≤ T) (hρ0 : 0 < ρ) (htiny : z ≤ 1 / 2 * (u * u * (ρ * ρ)))
    (heps : z' ≤ u * ρ) (Y1 : -(6 * u * V2 + z) ≤ Y - V2) (hVl : (T * T + ν * ν) * ((1 - 14 * u) * (ρ * ρ)) ≤ V2) (r2 : 0 ≤ r)
    (r4 : ∀ y, 0 ≤ y → y * y ≤ Y → (1 - u) * y - z' ≤ r) : (T - u - 13 * u * T - u) * ρ ≤ r := by
  have hu := u_pos
  have hu' := u_le
  have hρρ : 0 < ρ * ρ := mul_pos hρ0 hρ0
  have hs0 : 0 ≤ T * T + ν * ν := add_nonneg (mul_self_nonneg _) (mul_self_nonneg _)
  have hsρ : 0 ≤ (T * T + ν * ν) * (ρ * ρ) := mul_nonneg hs0 hρρ.le
  by_cases hTu : T ≤ u
  · have : (T - u - 13 * u * T - u) * ρ ≤ 0 := by
      refine mul_nonpos_of_nonpos_of_nonneg ?_ hρ0.le
      have := mul_nonneg hu.le hT0
      linarith
    linarith
  have hTu' := not_le.1 hTu
  have h1 := r4 ((T - u) * (1 - 12 * u) * ρ) (mul_nonneg (mul_nonneg (by linarith) (by linarith)) hρ0.le) (by
    have g1 : (1 - 21 * u) * ((T * T) * (ρ * ρ)) - z ≤ Y := by
      have h2 : (1 - 6 * u) * ((T * T + ν * ν) * ((1 - 14 * u) * (ρ * ρ))) ≤ (1 - 6 * u) * V2 := mul_le_mul_of_nonneg_left hVl (by linarith)
      have h3 : 0 ≤ (u + 84 * u * u) * ((T * T + ν * ν) * (ρ * ρ)) := mul_nonneg (by positivity) hsρ
      have h4 : 0 ≤ (1 - 21 * u) * ((ν * ν) * (ρ * ρ)) := mul_nonneg (by linarith) (mul_nonneg (mul_self_nonneg _) hρρ.le)
      linarith
    have g2 : (T - u) * (1 - 12 * u) * ρ * ((T - u) * (1 - 12 * u) * ρ) ≤ (1 - 21 * u) * ((T * T) * (ρ * ρ)) - 1 / 2 * (u * u * (ρ * ρ)) := by
      have e1 : (T - u) * (1 - 12 * u) * ρ * ((T - u) * (1 - 12 * u) * ρ) =
        ((T - u) * (T - u)) * ((1 - 12 * u) * (1 - 12 * u)) * (ρ * ρ) := by ring
      have e2 : (1 - 21 * u) * ((T * T) * (ρ * ρ)) - 1 / 2 * (u * u * (ρ * ρ)) = ((T * T) * (1 - 21 * u) - 1 / 2 * (u * u)) * (ρ * ρ) := by ring
      rw [e1, e2]
      refine mul_le_mul_of_nonneg_right ?_ hρρ.le
      have k1 : (T - u) * (T - u) ≤ T * T - u * u := by
        have := mul_nonneg hu.le (sub_nonneg.2 hTu'.le)
        linarith
      have k2 : (1 - 12 * u) * (1 - 12 * u) ≤ 1 - 21 * u := by
        have : 0 ≤ u * (3 - 144 * u) := mul_nonneg hu.le (by linarith)
        linarith
      have k3 : (T - u) * (T - u) * ((1 - 12 * u) * (1 - 12 * u)) ≤ (T * T - u * u) * (1 - 21 * u) :=
        mul_le_mul k1 k2 (mul_self_nonneg _) (by
          have := mul_self_nonneg (T - u)
          linarith)
      have k4 : 0 ≤ u * u * (1 / 2 - 21 * u) := mul_nonneg (by positivity) (by linarith)
      linarith
    linarith)
  refine le_trans ?_ h1
  have g5 : (T - u - 13 * u * T) * ρ ≤ (1 - u) * ((T - u) * (1 - 12 * u) * ρ) := by
    have e1 : (1 - u) * ((T - u) * (1 - 12 * u) * ρ) = ((T - u) * ((1 - u) * (1 - 12 * u))) * ρ := by ring
    rw [e1]
    refine mul_le_mul_of_nonneg_right ?_ hρ0.le
    have : (T - u) * (1 - 13 * u) ≤ (T - u) * ((1 - u) * (1 - 12 * u)) :=
      mul_le_mul_of_nonneg_left (by have := mul_self_nonneg u; linarith) (by linarith)
    have := mul_self_nonneg u
    linarith
  linarith

/-- The computed ratio of two lengths: `V = t U` plus a part perpendicular to `U`, of `ν` times the length of `U`. -/
theorem ratio_fl {ux uy vx vy t ν : ℚ} (hx : |ux| ≤ 2 ^ 200) (hy : |uy| ≤ 2 ^ 200) (hL : 1 / 2 ^ 160 ≤ |ux| ∨ 1 / 2 ^ 160 ≤ |uy|)
    (hx' : |vx| ≤ 2 ^ 200) (hy' : |vy| ≤ 2 ^ 200) (hV : vx * vx + vy * vy = (t * t + ν * ν) * (ux * ux + uy * uy)) (hν : 0 ≤ ν)
    (ht : |t| ≤ 2) (hν' : ν ≤ 1) :
    ∃ w, fdiv (env.sqrt (fin (lsqR vx vy))) (env.sqrt (fin (lsqR ux uy))) = .ok (fin w) ∧ 0 ≤ w ∧
      |t| - 64 * u ≤ w ∧ w ≤ |t| + ν + 64 * u := by
  have hu := u_pos
  have hu' := u_le
  obtain ⟨ρ, ρ1, ρ2, ρ3, ρ4⟩ := len_fl hx hy hL
  have hρ0 : 0 < ρ := lt_of_lt_of_le (by positivity) ρ2
  have hρρ : 0 < ρ * ρ := mul_pos hρ0 hρ0
  have e := lsqR_err hx' hy'
  set T := |t| with hT
  have hT0 : 0 ≤ T := abs_nonneg t
  have htt : t * t = T * T := (abs_mul_abs_self t).symm
  rw [htt] at hV
  set N := ux * ux + uy * uy with hN
  set V2 := vx * vx + vy * vy with hV2
  set Y := lsqR vx vy with hY
  have hV0 : 0 ≤ V2 := add_nonneg (mul_self_nonneg _) (mul_self_nonneg _)
  have hY0 : 0 ≤ Y := rq_nonneg (add_nonneg (rq_nonneg (mul_self_nonneg _)) (rq_nonneg (mul_self_nonneg _)))
  have htiny : 1 / 2 ^ 780 ≤ 1 / 2 * (u * u * (ρ * ρ)) := by
    have h1 : (1 : ℚ) / 2 ^ 780 ≤ 1 / 2 ^ (53 + 53 + (162 + 162) + 1) := inv_pow_le (by norm_num)
    have h2 := half_le (inv_pow_mul (inv_pow_mul (x := u) (y := u) (i := 53) (j := 53) (by unfold u; norm_num) (by unfold u; norm_num)) (inv_pow_mul ρ2 ρ2))
    exact h1.trans h2
  have heps : 1 / 2 ^ 500 ≤ u * ρ := by
    have h1 : (1 : ℚ) / 2 ^ 500 ≤ 1 / 2 ^ (53 + 162) := inv_pow_le (by norm_num)
    exact h1.trans (inv_pow_mul (by unfold u; norm_num) ρ2)
  have hY900 : Y ≤ 2 ^ 900 := by
    have h1 : |vx * vx| ≤ 2 ^ (200 + 200) := abs_mul_le_pow hx' hx'
    have h2 : |vy * vy| ≤ 2 ^ (200 + 200) := abs_mul_le_pow hy' hy'
    have h3 : V2 ≤ 2 ^ (200 + 200 + 1) := (le_abs_self _).trans (abs_add_le_pow h1 h2)
    have h4 := (abs_le.1 e).2
    have h5 : 6 * u * V2 ≤ 1 * 2 ^ (200 + 200 + 1) := mul_le_mul (by linarith) h3 hV0 (by norm_num)
    have h6 : (1 : ℚ) / 2 ^ 780 ≤ 1 / 2 ^ 0 := inv_pow_le (by norm_num)
    have h7 : (4 : ℚ) * 2 ^ (200 + 200 + 1) ≤ 2 ^ 900 := by
      have : (4 : ℚ) = 2 ^ 2 := by norm_num
      rw [this, ← pow_add]; exact pow_le_pow_right₀ (by norm_num) (by norm_num)
    have h8 : (1 : ℚ) ≤ 2 ^ (200 + 200 + 1) := one_le_pow₀ (by norm_num)
    rw [pow_zero, div_one] at h6
    generalize (1 : ℚ) / 2 ^ 780 = z at *
    generalize (2 : ℚ) ^ (200 + 200 + 1) = z' at *
    generalize (2 : ℚ) ^ 900 = z'' at *
    linarith
  obtain ⟨r, r1, r2, r3, r4⟩ := sqrt_fl hY0 hY900
  obtain ⟨Y1, Y2⟩ := abs_le.1 e
  generalize (1 : ℚ) / 2 ^ 780 = z at *
  generalize (1 : ℚ) / 2 ^ 500 = z' at *
  have hs0 : 0 ≤ T * T + ν * ν := add_nonneg (mul_self_nonneg _) (mul_self_nonneg _)
  have hVu : V2 ≤ (T * T + ν * ν) * ((1 + 14 * u) * (ρ * ρ)) := by rw [hV]; exact mul_le_mul_of_nonneg_left ρ4 hs0
  have hVl : (T * T + ν * ν) * ((1 - 14 * u) * (ρ * ρ)) ≤ V2 := by rw [hV]; exact mul_le_mul_of_nonneg_left ρ3 hs0
  have huρ : 0 < u * ρ := mul_pos hu hρ0
  have hsρ : 0 ≤ (T * T + ν * ν) * (ρ * ρ) := mul_nonneg hs0 hρρ.le
  have up := ratio_upper hT0 hν hρ0 htiny heps Y2 hVu r3
  have low := ratio_lower hT0 hρ0 htiny heps Y1 hVl r2 r4
  have hw0 : 0 ≤ r / ρ := div_nonneg r2 hρ0.le
  have hwu : r / ρ ≤ (T + ν + u) * (1 + 14 * u) + u := by rw [div_le_iff₀ hρ0]; exact up
  have hwl : T - u - 13 * u * T - u ≤ r / ρ := by rw [le_div_iff₀ hρ0]; exact low
  have huT : u * T ≤ u * 2 := mul_le_mul_of_nonneg_left ht hu.le
  have huν : u * ν ≤ u * 1 := mul_le_mul_of_nonneg_left hν' hu.le
  have huu : u * u ≤ u * (1 / 1000000) := mul_le_mul_of_nonneg_left hu' hu.le
  have hwu' : r / ρ ≤ T + ν + 45 * u := by linarith
  have hw4 : r / ρ ≤ 4 := by linarith
  refine ⟨rq (r / ρ), ?_, rq_nonneg hw0, ?_⟩
  · rw [r1, ρ1]
    exact fdiv_fin (k := 2) hρ0.ne' (by norm_num) (by rw [abs_of_nonneg hw0]; linarith)
  · have e1 := rq_err_add (r / ρ)
    rw [abs_of_nonneg hw0] at e1
    have he : eta ≤ u := by
      unfold eta u
      exact inv_pow_le (by norm_num)
    obtain ⟨a1, a2⟩ := abs_le.1 e1
    have : u * (r / ρ) ≤ u * 4 := mul_le_mul_of_nonneg_left hw4 hu.le
    constructor <;> linarith

variable {M D κ tol σ : ℚ} {l : List (Pt ℚ)} {h : 0 < l.length}

theorem prevCorner_mod (k c : Nat) : prevCorner h (k % l.length + c) = prevCorner h (k + c) := by
  unfold prevCorner corner
  congr 1
  rw [show k % l.length + c + l.length - 1 = k % l.length + (c + l.length - 1) from by omega,
    show k + c + l.length - 1 = k + (c + l.length - 1) from by omega, Nat.mod_add_mod]

/-- A row with two weights. -/
theorem pair_fRow {m n i j : Nat} (hm : n ≤ m) (hi : i < n) (hj : j < n) (a b : ℚ) :
    (do
      let ws ← wr (List.replicate m (0 : Fl)) i (fin a)
      wr ws j (fin b)) = .ok (fRow m (fun k => fin (if k = j then b else if k = i then a else 0)) n) := by
  rw [wr_of_lt (by rw [List.length_replicate]; omega), ok_bind, wr_of_lt (by rw [List.length_set, List.length_replicate]; omega)]
  congr 1
  apply List.ext_getElem?
  intro k
  by_cases hk : k < m
  · rw [List.getElem?_set, List.getElem?_set, fRow_get _ hm hk, List.length_set, List.length_replicate, List.getElem?_replicate]
    by_cases kj : j = k
    · subst kj; simp [hj, hk]
    by_cases ki : i = k
    · subst ki; simp [hi, hk, kj, Ne.symm kj]
    · rw [if_neg kj, if_neg ki, if_pos hk, if_neg (Ne.symm kj), if_neg (Ne.symm ki)]
      split <;> rfl
  · rw [List.getElem?_eq_none (by rw [List.length_set, List.length_set, List.length_replicate]; omega),
      List.getElem?_eq_none (by rw [fRow_length _ hm]; omega)]

theorem sum_pair {n i j : Nat} (hi : i < n) (hj : j < n) (hij : i ≠ j) (a b : ℚ) (x : Nat → ℚ) :
    ∑ k ∈ Finset.range n, (if k = j then b else if k = i then a else 0) * x k = a * x i + b * x j := by
  have e : ∀ k ∈ Finset.range n, (if k = j then b else if k = i then a else 0) * x k =
      (if k = j then b * x j else 0) + (if k = i then a * x i else 0) := by
    intro k _
    by_cases kj : k = j
    · subst kj; simp [Ne.symm hij]
    by_cases ki : k = i
    · subst ki; simp [hij]
    · simp [kj, ki]
  rw [Finset.sum_congr rfl e, Finset.sum_add_distrib, Finset.sum_ite_eq' , Finset.sum_ite_eq', if_pos (Finset.mem_range.2 hj),
    if_pos (Finset.mem_range.2 hi)]
  ring

/-- A lower bound on a parameter. -/
theorem param_lower {t X : ℚ} (hD : 0 < D) (hκ : 0 < κ) (ht : 0 < tol) (hX : D * D ≤ κ * X) (hX0 : 0 ≤ X)
    (h : -(14 * κ * tol * D) ≤ t * X) : -(14 * κ ^ 2 * tol) ≤ t * D := by
  by_contra hc
  have hc := not_le.1 hc
  have h0 : t < 0 := by
    by_contra h1
    have := mul_nonneg (not_lt.1 h1) hD.le
    have : 0 < 14 * κ ^ 2 * tol := by positivity
    linarith
  have h1 := mul_le_mul_of_nonpos_left hX h0.le
  have h2 := mul_le_mul_of_nonneg_left h hκ.le
  have h3 := mul_lt_mul_of_pos_right hc hD
  linarith

namespace FatStored
variable (F : FatStored M D κ tol h σ) {p q : Pt ℚ} (C : CloseTo h σ D tol p q)
include F

theorem next_far' (k : Nat) : D * D ≤ κ * sideOr h σ k (prevCorner h (k + 2)) := by
  rw [F.sideOr_reduce, ← prevCorner_mod]
  exact F.next_far (Nat.mod_lt _ h)

include C

theorem bnd_p : Bnd (2 ^ 199) p := by
  have h1 := F.D_le
  have h2 := F.tol_small
  have h3 := F.tol_pos
  have b := F.bnd 0
  have c := C.corner 0
  have hM := F.M_le
  have e : (2 : ℚ) ^ 100 + 3 * 2 ^ 112 ≤ 2 ^ 199 := by norm_num
  constructor
  · have g1 := abs_sub_abs_le_abs_sub p.x q.x
    have g2 := abs_sub_abs_le_abs_sub q.x (corner l h 0).x
    rw [abs_sub_comm q.x] at g2
    linarith [C.dx, b.1, c.1]
  · have g1 := abs_sub_abs_le_abs_sub p.y q.y
    have g2 := abs_sub_abs_le_abs_sub q.y (corner l h 0).y
    rw [abs_sub_comm q.y] at g2
    linarith [C.dy, b.2, c.2]

/-- The position of a point near a side, along the side (`t`) and away from it (`β`). -/
theorem near_param {j : Nat} (hj : j ≤ l.length) (hn : nearSideF h tol p j) : ∃ t β : ℚ,
    p.x = (prevCorner h j).x + t * ((prevCorner h (j + 1)).x - (prevCorner h j).x) - β * ((prevCorner h (j + 1)).y - (prevCorner h j).y) ∧
    p.y = (prevCorner h j).y + t * ((prevCorner h (j + 1)).y - (prevCorner h j).y) + β * ((prevCorner h (j + 1)).x - (prevCorner h j).x) ∧
    |β| * D ≤ 10 * κ ^ 2 * tol ∧ |β| * extent h j ≤ 5 * κ * tol ∧ -(14 * κ ^ 2 * tol) ≤ t * D ∧ -(14 * κ ^ 2 * tol) ≤ (1 - t) * D := by
  have hD := F.D_pos
  have ht := F.tol_pos
  have hκ := F.κ_pos
  have hκ1 := F.kappa
  set a := prevCorner h j with ha
  set b := prevCorner h (j + 1) with hb
  set L := extent h j with hL
  have hLD := F.extent_long hj
  have hLt := F.extent_ge hj
  rw [← hL] at hLD hLt
  have hL0 : 0 < L := by linarith
  have hxL : |b.x - a.x| ≤ L := le_max_left _ _
  have hyL : |b.y - a.y| ≤ L := le_max_right _ _
  have hLdD : L ≤ D := max_le (F.prev_near _ _).1 (F.prev_near _ _).2
  set N := (b.x - a.x) * (b.x - a.x) + (b.y - a.y) * (b.y - a.y) with hN
  have hNL : L * L ≤ N := by
    have h1 := mul_self_nonneg (b.x - a.x)
    have h2 := mul_self_nonneg (b.y - a.y)
    rcases max_cases |b.x - a.x| |b.y - a.y| with ⟨e, -⟩ | ⟨e, -⟩
    · have : L = |b.x - a.x| := e
      rw [this, abs_mul_abs_self]; linarith
    · have : L = |b.y - a.y| := e
      rw [this, abs_mul_abs_self]; linarith
  have hN0 : 0 < N := lt_of_lt_of_le (mul_pos hL0 hL0) hNL
  -- the area
  have hA : |sideOr h σ j p| ≤ 5 / 2 * (tol * D) := by
    have h1 := near_upper (F.extent_small hj) F.tol_ge hn
    have h2 := (abs_le.1 (F.area_err C j)).1
    have h3 := mul_le_mul_of_nonneg_left hLdD ht.le
    rw [← hL] at h1
    linarith
  have hAo : |sideOr h σ j p| = |orient a b p| := abs_sideOr F.sign j p
  rw [hAo] at hA
  set β := orient a b p / N with hβ
  set t := ((b.x - a.x) * (p.x - a.x) + (b.y - a.y) * (p.y - a.y)) / N with htd
  have hpx : p.x = a.x + t * (b.x - a.x) - β * (b.y - a.y) := by
    have : t * (b.x - a.x) - β * (b.y - a.y) = p.x - a.x := by
      rw [htd, hβ, div_mul_eq_mul_div, div_mul_eq_mul_div, ← sub_div, div_eq_iff hN0.ne']
      unfold orient
      rw [hN]; ring
    linarith
  have hpy : p.y = a.y + t * (b.y - a.y) + β * (b.x - a.x) := by
    have : t * (b.y - a.y) + β * (b.x - a.x) = p.y - a.y := by
      rw [htd, hβ, div_mul_eq_mul_div, div_mul_eq_mul_div, ← add_div, div_eq_iff hN0.ne']
      unfold orient
      rw [hN]; ring
    linarith
  have hβabs : |β| = |orient a b p| / N := by rw [hβ, abs_div, abs_of_pos hN0]
  have hβD : |β| * D ≤ 10 * κ ^ 2 * tol := by
    rw [hβabs, div_mul_eq_mul_div, div_le_iff₀ hN0]
    have h1 := mul_le_mul_of_nonneg_right hA hD.le
    have h2 : D * D ≤ 4 * κ ^ 2 * N := by
      have g1 : D * D ≤ (2 * κ * L) * (2 * κ * L) := mul_le_mul hLD hLD hD.le (by positivity)
      have g2 := mul_le_mul_of_nonneg_left hNL (show 0 ≤ 4 * κ ^ 2 by positivity)
      linarith
    have h3 := mul_le_mul_of_nonneg_left h2 ht.le
    linarith
  have hβL : |β| * L ≤ 5 * κ * tol := by
    rw [hβabs, div_mul_eq_mul_div, div_le_iff₀ hN0]
    have h1 := mul_le_mul_of_nonneg_right hA hL0.le
    have h2 := mul_le_mul_of_nonneg_right hLD hL0.le
    have h3 := mul_le_mul_of_nonneg_left h2 ht.le
    have h4 := mul_le_mul_of_nonneg_left hNL (show 0 ≤ 5 * κ * tol by positivity)
    linarith
  -- a vector of the size of the face and the part away from the side
  have hdot : ∀ {x y : ℚ}, |x| ≤ D → |y| ≤ D → |σ * (β * (x * (b.x - a.x) + y * (b.y - a.y)))| ≤ 10 * κ * tol * D := by
    intro x y hx hy
    rw [abs_mul, abs_sign F.sign, one_mul, abs_mul]
    have h1 : |x * (b.x - a.x) + y * (b.y - a.y)| ≤ D * L + D * L := by
      refine (abs_add_le _ _).trans ?_
      rw [abs_mul, abs_mul]
      exact add_le_add (mul_le_mul hx hxL (abs_nonneg _) hD.le) (mul_le_mul hy hyL (abs_nonneg _) hD.le)
    have h2 := mul_le_mul_of_nonneg_left h1 (abs_nonneg β)
    have h3 := mul_le_mul_of_nonneg_right hβL (show 0 ≤ 2 * D by linarith)
    linarith
  have hκtD : 4 * (tol * D) ≤ 4 * κ * tol * D := by
    have := mul_le_mul_of_nonneg_right hκ1 (mul_pos ht hD).le
    linarith
  refine ⟨t, β, hpx, hpy, hβD, hβL, ?_, ?_⟩
  · -- the side before
    set k := j + l.length - 1 with hk
    have k1 : k + 1 = j + l.length := by omega
    have e1 : prevCorner h (k + 1) = a := by rw [k1, prevCorner_period]
    have e2 : prevCorner h (k + 2) = b := by
      rw [show k + 2 = (j + 1) + l.length from by omega, prevCorner_period]
    have hX := F.next_far' k
    rw [e2] at hX
    have hX0 : 0 ≤ sideOr h σ k b := by
      by_contra hc
      have := mul_neg_of_pos_of_neg hκ (not_le.1 hc)
      have := mul_pos hD hD
      linarith
    refine param_lower hD hκ ht hX hX0 ?_
    have h1 := (abs_le.1 (F.side_le k C.dx C.dy)).1
    have h2 := C.inside k
    obtain ⟨d1, d2⟩ := F.prev_near (k + 1) k
    rw [e1] at d1 d2
    have h3 := (abs_le.1 (hdot d1 d2)).2
    have e3 : sideOr h σ k p = t * sideOr h σ k b + σ * (β * ((a.x - (prevCorner h k).x) * (b.x - a.x) + (a.y - (prevCorner h k).y) * (b.y - a.y))) := by
      unfold sideOr orient
      rw [e1, hpx, hpy]
      ring
    linarith
  · -- the side after
    have e0 : prevCorner h (j + 1 + 1) = prevCorner h (j + 2) := rfl
    have hX := F.next_far' j
    set y := prevCorner h (j + 2) with hy
    have hX0 : 0 ≤ sideOr h σ j y := by
      by_contra hc
      have := mul_neg_of_pos_of_neg hκ (not_le.1 hc)
      have := mul_pos hD hD
      linarith
    refine param_lower hD hκ ht hX hX0 ?_
    have h1 := (abs_le.1 (F.side_le (j + 1) C.dx C.dy)).1
    have h2 := C.inside (j + 1)
    obtain ⟨d1, d2⟩ := F.prev_near (j + 2) (j + 1)
    have h3 := (abs_le.1 (hdot d1 d2)).2
    have e3 : sideOr h σ (j + 1) p = (1 - t) * sideOr h σ j y + σ * (β * ((y.x - b.x) * (b.x - a.x) + (y.y - b.y) * (b.y - a.y))) := by
      unfold sideOr orient
      rw [e0, ← hb, ← ha, ← hy, hpx, hpy]
      ring
    linarith

/-- The weights of a point near side `j`. -/
theorem near_row {j : Nat} (hj : j ≤ l.length) (hn : nearSideF h tol p j) : ∃ f : Nat → ℚ,
    (∀ m, l.length ≤ m → interpEdgeCase env m (fp (prevCorner h j)) (toVector (fp (prevCorner h j)) (fp (prevCorner h (j + 1)))) (fp p)
      ((j + l.length - 1) % l.length) (j % l.length) = .ok (fRow m (fun k => fin (f k)) l.length)) ∧
    (∀ k < l.length, -(32 * κ ^ 2 * tol) ≤ f k * D) ∧
    |∑ k ∈ Finset.range l.length, f k - 1| ≤ 3 * l.length * u ∧
    |∑ k ∈ Finset.range l.length, f k * (corner l h k).x - p.x| ≤ 200 * ((l.length * κ) ^ 2 * tol) ∧
    |∑ k ∈ Finset.range l.length, f k * (corner l h k).y - p.y| ≤ 200 * ((l.length * κ) ^ 2 * tol) := by
  have hu := u_pos
  have hu' := u_le
  have hD := F.D_pos
  have ht := F.tol_pos
  have hκ := F.κ_pos
  have hκ1 := F.kappa
  have h3 := F.three
  obtain ⟨t, β, hpx, hpy, hβD, hβL, t1, t2⟩ := F.near_param C hj hn
  set a := prevCorner h j with ha
  set b := prevCorner h (j + 1) with hb
  have hκt : 0 < κ ^ 2 * tol := by positivity
  have hκP : κ ^ 2 * tol * 9 ≤ (l.length * κ) ^ 2 * tol := by
    rw [mul_pow]
    have : (9 : ℚ) ≤ (l.length : ℚ) ^ 2 := by have := F.n_ge; nlinarith
    have := mul_le_mul_of_nonneg_right this hκt.le
    linarith
  have hκD : 2304 * (κ ^ 2 * tol) ≤ D := by
    have := F.tol_le
    linarith
  have hκκ : κ * tol ≤ κ ^ 2 * tol := mul_le_mul_of_nonneg_right (by nlinarith) ht.le
  have htκ : tol ≤ κ ^ 2 * tol := by
    have := mul_le_mul_of_nonneg_right hκ1 ht.le
    linarith
  have htD : |t| * D ≤ D + 14 * κ ^ 2 * tol := by
    rcases le_total 0 t with g | g
    · rw [abs_of_nonneg g]; linarith
    · rw [abs_of_nonpos g]; linarith
  have htt : (|t| - t) * D ≤ 28 * κ ^ 2 * tol := by
    rcases le_total 0 t with g | g
    · rw [abs_of_nonneg g, sub_self, zero_mul]; linarith
    · rw [abs_of_nonpos g]; linarith
  have hT2 : |t| ≤ 2 := by
    have : |t| * D ≤ 2 * D := by linarith
    exact le_of_mul_le_mul_right this hD
  have hβ1 : |β| ≤ 1 := by
    have : |β| * D ≤ 1 * D := by linarith
    exact le_of_mul_le_mul_right this hD
  have ba := F.bnd_prev j
  have bb := F.bnd_prev (j + 1)
  rw [← ha] at ba
  rw [← hb] at bb
  have ba' : Bnd (2 ^ 199) a := ba.mono (pow_le_pow_right₀ (by norm_num) (by norm_num))
  have bb' : Bnd (2 ^ 199) b := bb.mono (pow_le_pow_right₀ (by norm_num) (by norm_num))
  have bp := F.bnd_p C
  have hL := F.extent_small hj
  have hL' : 1 / 2 ^ 160 ≤ |b.x - a.x| ∨ 1 / 2 ^ 160 ≤ |b.y - a.y| := by
    rcases max_cases |b.x - a.x| |b.y - a.y| with ⟨e, -⟩ | ⟨e, -⟩
    · left; rw [← e]; exact hL
    · right; rw [← e]; exact hL
  obtain ⟨w, w1, w2, w3, w4⟩ := ratio_fl (ux := b.x - a.x) (uy := b.y - a.y) (vx := p.x - a.x) (vy := p.y - a.y) (t := t) (ν := |β|)
    (abs_sub_le_pow bb'.1 ba'.1) (abs_sub_le_pow bb'.2 ba'.2) hL' (abs_sub_le_pow bp.1 ba'.1) (abs_sub_le_pow bp.2 ba'.2)
    (by rw [abs_mul_abs_self, hpx, hpy]; ring) (abs_nonneg _) hT2 hβ1
  have h64 := F.tol_D
  have hwD : w * D ≤ D + 25 * κ ^ 2 * tol := by
    have := mul_le_mul_of_nonneg_right w4 hD.le
    linarith
  have hw2 : w ≤ 2 := by
    have : w * D ≤ 2 * D := by linarith
    exact le_of_mul_le_mul_right this hD
  have h1w : |1 - w| ≤ 1 := by rw [abs_le]; constructor <;> linarith
  have he : |rq (1 - w) - (1 - w)| ≤ 2 * u := by
    have e1 := rq_err_add (1 - w)
    have e2 : eta ≤ u := by unfold eta u; exact inv_pow_le (by norm_num)
    have e3 := mul_le_mul_of_nonneg_left h1w hu.le
    linarith
  obtain ⟨e1, e2⟩ := abs_le.1 he
  set i := (j + l.length - 1) % l.length with hi
  set j' := j % l.length with hj'
  have hil : i < l.length := Nat.mod_lt _ h
  have hjl : j' < l.length := Nat.mod_lt _ h
  have hij : i ≠ j' := by
    rw [hi, hj']
    rcases hj.lt_or_eq with g | g
    · rw [Nat.mod_eq_of_lt g]
      rcases Nat.eq_zero_or_pos j with g0 | g0
      · rw [g0, Nat.mod_eq_of_lt (by omega)]; omega
      · rw [show j + l.length - 1 = (j - 1) + l.length from by omega, Nat.add_mod_right, Nat.mod_eq_of_lt (by omega)]; omega
    · rw [g, Nat.mod_self, show l.length + l.length - 1 = (l.length - 1) + l.length from by omega, Nat.add_mod_right,
        Nat.mod_eq_of_lt (by omega)]
      omega
  have ci : corner l h i = a := by rw [ha, hi]; unfold prevCorner corner; simp only [Nat.mod_mod]
  have cj : corner l h j' = b := by rw [hb, hj', prevCorner_succ]; unfold corner; simp only [Nat.mod_mod]
  have hwt : |w - t| * D ≤ 39 * κ ^ 2 * tol := by
    have g1 : -(64 * u) ≤ w - t := by have := le_abs_self t; linarith
    have g2 : (w - t) * D ≤ 39 * κ ^ 2 * tol := by
      have := mul_le_mul_of_nonneg_right w4 hD.le
      linarith
    rcases le_total 0 (w - t) with g | g
    · rw [abs_of_nonneg g]; exact g2
    · rw [abs_of_nonpos g]
      have := mul_le_mul_of_nonneg_right g1 hD.le
      linarith
  have pos : ∀ {av bv pv s : ℚ}, |av| ≤ M → |bv - av| ≤ D → |s| ≤ 5 * κ * tol → pv = av + t * (bv - av) + s →
      |rq (1 - w) * av + w * bv - pv| ≤ 200 * ((l.length * κ) ^ 2 * tol) := by
    intro av bv pv s g1 g2 g3 g4
    have e : rq (1 - w) * av + w * bv - pv = (rq (1 - w) - (1 - w)) * av + (w - t) * (bv - av) + -s := by rw [g4]; ring
    rw [e]
    have k1 : |(rq (1 - w) - (1 - w)) * av| ≤ 2 * u * M := by
      rw [abs_mul]; exact mul_le_mul he g1 (abs_nonneg _) (by linarith)
    have k2 : |(w - t) * (bv - av)| ≤ |w - t| * D := by
      rw [abs_mul]; exact mul_le_mul_of_nonneg_left g2 (abs_nonneg _)
    have k3 := F.tol_M
    refine (abs_add_le _ _).trans ((add_le_add (abs_add_le _ _) le_rfl).trans ?_)
    rw [abs_neg]
    linarith
  obtain ⟨d1, d2⟩ := F.prev_near (j + 1) j
  rw [← ha, ← hb] at d1 d2
  refine ⟨fun k => if k = j' then w else if k = i then rq (1 - w) else 0, ?_, ?_, ?_, ?_, ?_⟩
  · intro m hm
    unfold interpEdgeCase
    simp only
    rw [sq_fl ba' bp, sq_fl ba' bb', w1, ok_bind]
    have e3 : (1 : Fl) - fin w = fin (rq (1 - w)) := by
      rw [one_def]
      exact sub_fin (k := 1) (by norm_num) (by rw [pow_one]; linarith)
    rw [e3]
    exact pair_fRow hm hil hjl _ _
  · intro k _
    simp only
    split
    · have := mul_nonneg w2 hD.le
      linarith
    · split
      · have := mul_le_mul_of_nonneg_right e1 hD.le
        linarith
      · rw [zero_mul]; linarith
  · have := sum_pair hil hjl hij (rq (1 - w)) w (fun _ => 1)
    simp only [mul_one] at this
    rw [this]
    have e3 : rq (1 - w) + w - 1 = rq (1 - w) - (1 - w) := by ring
    rw [e3]
    have := mul_le_mul_of_nonneg_right F.n_ge hu.le
    linarith
  · rw [sum_pair hil hjl hij, ci, cj]
    refine pos (s := -(β * (b.y - a.y))) ?_ d1 ?_ ?_
    · rw [ha]; unfold prevCorner; exact (F.bnd _).1
    · rw [abs_neg, abs_mul]
      exact (mul_le_mul_of_nonneg_left (le_max_right _ _) (abs_nonneg _)).trans hβL
    · rw [hpx]; ring
  · rw [sum_pair hil hjl hij, ci, cj]
    refine pos (s := β * (b.x - a.x)) ?_ d2 ?_ ?_
    · rw [ha]; unfold prevCorner; exact (F.bnd _).2
    · rw [abs_mul]
      exact (mul_le_mul_of_nonneg_left (le_max_left _ _) (abs_nonneg _)).trans hβL
    · rw [hpy]

/-- The weights of a point close to the polygon. -/
theorem weights (ht : tol ≤ 2 ^ 200) {m : Nat} (hm : l.length ≤ m) : ∃ f : Nat → ℚ,
    wachspressWeights env (l.map fp) (fp p) m (fin tol) = .ok (fRow m (fun k => fin (f k)) l.length) ∧
    (∀ k < l.length, -(32 * κ ^ 2 * tol) ≤ f k * D) ∧
    |∑ k ∈ Finset.range l.length, f k - 1| ≤ 3 * l.length * u ∧
    |∑ k ∈ Finset.range l.length, f k * (corner l h k).x - p.x| ≤ 200 * ((l.length * κ) ^ 2 * tol) ∧
    |∑ k ∈ Finset.range l.length, f k * (corner l h k).y - p.y| ≤ 200 * ((l.length * κ) ^ 2 * tol) := by
  have hp : Bnd (2 ^ 200) p := (F.bnd_p C).mono (pow_le_pow_right₀ (by norm_num) (by norm_num))
  have R := F.run hp ht
  have hlen : (l.map fp).length = l.length := List.length_map _
  by_cases hn : ∀ j ≤ l.length, ¬ nearSideF h tol p j
  · obtain ⟨f, f1, f2, f3, f4, f5⟩ := F.far_row C hn
    refine ⟨f, ?_, fun k hk => ?_, f3, f4, f5⟩
    · have := R.far env (by rw [hlen]; exact h) (m := m) (by rw [hlen]; exact hm) (by rw [hlen]; exact hn) (f := fun k => fin (f k))
        (by rw [hlen]; exact f1)
      rw [hlen] at this
      exact this
    · have := mul_nonneg (f2 k hk) F.D_nonneg
      have := mul_pos (pow_pos F.κ_pos 2) F.tol_pos
      linarith
  · push Not at hn
    classical
    have hex : ∃ j, j ≤ l.length ∧ nearSideF h tol p j := hn
    obtain ⟨g1, g2⟩ := Nat.find_spec hex
    have g3 : ∀ j' < Nat.find hex, ¬ nearSideF h tol p j' := fun j' hj' hc => Nat.find_min hex hj' ⟨by omega, hc⟩
    obtain ⟨f, f1, f2⟩ := F.near_row C g1 g2
    refine ⟨f, ?_, f2⟩
    have := R.near_side env (by rw [hlen]; exact h) (m := m) (by rw [hlen]; exact hm) (by rw [hlen]; exact g1) g2 g3
    rw [hlen] at this
    rw [this]
    exact f1 m hm

end FatStored

end Celltree.Fl
