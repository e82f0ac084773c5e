import Verif.Proofs.FloatNear
import Mathlib.Data.Rat.Floor
import Mathlib.Data.Nat.Sqrt

/-!
# The square root in binary64
-/

namespace Celltree.Fl

theorem nat_sqrt_bounds {X : ℚ} (hX : 0 ≤ X) : ((Nat.sqrt X.floor.toNat : ℚ) * Nat.sqrt X.floor.toNat ≤ X) ∧
    X < ((Nat.sqrt X.floor.toNat : ℚ) + 1) * (Nat.sqrt X.floor.toNat + 1) := by
  have e1 : (X.floor.toNat : ℤ) = ⌊X⌋ := Int.toNat_of_nonneg (Int.floor_nonneg.2 hX)
  generalize X.floor.toNat = N at *
  constructor
  · have h1 : ((Nat.sqrt N * Nat.sqrt N : ℕ) : ℤ) ≤ ⌊X⌋ := by
      rw [← e1]; exact_mod_cast Nat.sqrt_le N
    have := Int.le_floor.1 h1
    push_cast at this
    exact this
  · have h1 : ⌊X⌋ < (((Nat.sqrt N + 1) * (Nat.sqrt N + 1) : ℕ) : ℤ) := by
      rw [← e1]; exact_mod_cast Nat.lt_succ_sqrt N
    have := Int.floor_lt.1 h1
    push_cast at this
    exact this

/-- The value that is rounded. -/
theorem sqrt_mid {x P : ℚ} (hP : 0 < P) {s : ℕ} (h1 : (s : ℚ) * s ≤ x * (P * P)) (h2 : x * (P * P) < ((s : ℚ) + 1) * (s + 1))
    {t : ℚ} (ht : t = s / P ∨ t = (2 * s + 1) / (2 * P)) :
    0 ≤ t ∧ (∀ y, 0 ≤ y → x ≤ y * y → t ≤ y + 1 / P) ∧ ∀ y, 0 ≤ y → y * y ≤ x → y ≤ t + 1 / P := by
  have hs : (0 : ℚ) ≤ s := Nat.cast_nonneg s
  have t1 : (s : ℚ) ≤ t * P := by
    rcases ht with rfl | rfl
    · rw [div_mul_cancel₀ _ hP.ne']
    · have : (2 * (s : ℚ) + 1) / (2 * P) * P = s + 1 / 2 := by field_simp
      linarith
  have t2 : t * P ≤ s + 1 := by
    rcases ht with rfl | rfl
    · rw [div_mul_cancel₀ _ hP.ne']; linarith
    · have : (2 * (s : ℚ) + 1) / (2 * P) * P = s + 1 / 2 := by field_simp
      linarith
  refine ⟨?_, ?_, ?_⟩
  · by_contra hn
    have := mul_neg_of_neg_of_pos (not_le.1 hn) hP
    linarith
  · intro y hy hxy
    have h3 : (s : ℚ) ≤ y * P := by
      refine abs_le_of_sq_le_sq' ?_ (by positivity) |>.2
      have := mul_le_mul_of_nonneg_right hxy (mul_pos hP hP).le
      linarith [this, sq (s : ℚ), show (y * P) ^ 2 = y * y * (P * P) by ring]
    have h4 : t * P ≤ (y + 1 / P) * P := by
      rw [add_mul, one_div_mul_cancel hP.ne']; linarith
    exact le_of_mul_le_mul_right h4 hP
  · intro y hy hxy
    have h3 : y * P ≤ s + 1 := by
      refine abs_le_of_sq_le_sq' ?_ (by positivity) |>.2
      have := mul_le_mul_of_nonneg_right hxy (mul_pos hP hP).le
      linarith [this, sq ((s : ℚ) + 1), show (y * P) ^ 2 = y * y * (P * P) by ring]
    have h4 : y * P ≤ (t + 1 / P) * P := by
      rw [add_mul, one_div_mul_cancel hP.ne']; linarith
    exact le_of_mul_le_mul_right h4 hP

theorem sqrt_eq {x : ℚ} (hx : 0 ≤ x) : ∃ t, env.sqrt (fin x) = rnd t ∧ 0 ≤ t ∧
    (∀ y, 0 ≤ y → x ≤ y * y → t ≤ y + 1 / 2 ^ 600) ∧ ∀ y, 0 ≤ y → y * y ≤ x → y ≤ t + 1 / 2 ^ 600 := by
  have hP : (0 : ℚ) < 2 ^ 600 := by positivity
  have e : x * 2 ^ 1200 = x * (2 ^ 600 * 2 ^ 600) := by rw [← pow_add]
  have hX : 0 ≤ x * 2 ^ 1200 := mul_nonneg hx (by positivity)
  obtain ⟨b1, b2⟩ := nat_sqrt_bounds hX
  set s := Nat.sqrt (x * 2 ^ 1200).floor.toNat with hs
  have hdef : env.sqrt (fin x) = rnd (if (s * s : ℚ) = x * 2 ^ 1200 then mkRat s (2 ^ 600) else mkRat (2 * s + 1) (2 ^ 601)) := by
    change (if x < 0 then nan else _) = _
    rw [if_neg (not_lt.2 hx)]
  have ht : (if (s * s : ℚ) = x * 2 ^ 1200 then mkRat s (2 ^ 600) else mkRat (2 * s + 1) (2 ^ 601)) = (s : ℚ) / 2 ^ 600 ∨
      (if (s * s : ℚ) = x * 2 ^ 1200 then mkRat s (2 ^ 600) else mkRat (2 * s + 1) (2 ^ 601)) = (2 * (s : ℚ) + 1) / (2 * 2 ^ 600) := by
    split
    · left
      rw [Rat.mkRat_eq_div, Nat.cast_pow]
      rfl
    · right
      rw [Rat.mkRat_eq_div, Nat.cast_pow, ← pow_succ']
      push_cast
      rfl
  rw [e] at b1 b2
  generalize (2 : ℚ) ^ 600 = P at *
  generalize (if (s * s : ℚ) = x * 2 ^ 1200 then mkRat s (2 ^ 600) else mkRat (2 * s + 1) (2 ^ 601)) = t at *
  exact ⟨t, hdef, sqrt_mid hP b1 b2 ht⟩

/-- The square root is within rounding errors of every upper and lower bound of the exact one. -/
theorem sqrt_fl {x : ℚ} (hx : 0 ≤ x) (hb : x ≤ 2 ^ 900) : ∃ r, env.sqrt (fin x) = fin r ∧ 0 ≤ r ∧
    (∀ y, 0 ≤ y → x ≤ y * y → r ≤ (1 + u) * y + 1 / 2 ^ 500) ∧
    (∀ y, 0 ≤ y → y * y ≤ x → (1 - u) * y - 1 / 2 ^ 500 ≤ r) := by
  have hu := u_pos
  have hu' := u_le
  obtain ⟨t, e, h0, h1, h2⟩ := sqrt_eq hx
  have hsmall : (1 : ℚ) / 2 ^ 600 * 2 + eta ≤ 1 / 2 ^ 500 := by
    have g1 : (1 : ℚ) / 2 ^ 600 ≤ 1 / 2 ^ 502 := inv_pow_le (by norm_num)
    have g2 : eta ≤ 1 / 2 ^ 502 := by unfold eta; exact inv_pow_le (by norm_num)
    have g3 : (1 : ℚ) / 2 ^ 500 = 4 * (1 / 2 ^ 502) := by
      rw [show (502 : ℕ) = 500 + 2 from rfl, pow_add]; generalize (2 : ℚ) ^ 500 = z; ring
    have g4 : (0 : ℚ) < 1 / 2 ^ 502 := by positivity
    rw [g3]
    generalize (1 : ℚ) / 2 ^ 600 = a at *
    generalize (1 : ℚ) / 2 ^ 502 = b at *
    linarith only [g1, g2, g4]
  have hs0 : (0 : ℚ) < 1 / 2 ^ 600 := by positivity
  have hs1 : (1 : ℚ) / 2 ^ 600 ≤ 1 := (inv_pow_le (Nat.zero_le _)).trans (by norm_num)
  have htb : t ≤ 2 ^ 451 := by
    have h3 := h1 (2 ^ 450) (by positivity) (by rw [← pow_add]; exact hb)
    have h4 : (2 : ℚ) ^ 450 + 1 / 2 ^ 600 ≤ 2 ^ 451 := by
      have h5 : (1 : ℚ) ≤ 2 ^ 450 := one_le_pow₀ (by norm_num)
      have h6 : (2 : ℚ) ^ 451 = 2 * 2 ^ 450 := pow_succ' 2 450
      rw [h6]
      generalize (2 : ℚ) ^ 450 = a at *
      generalize (1 : ℚ) / 2 ^ 600 = b at *
      linarith only [h5, hs1]
    exact h3.trans h4
  have hf : rnd t = fin (rq t) := rnd_fin (by
    rw [abs_of_nonneg h0]; exact htb.trans (pow_le_big (by norm_num)))
  have hr := rq_err_add t
  rw [abs_of_nonneg h0] at hr
  have hr' := abs_le.1 hr
  generalize (1 : ℚ) / 2 ^ 500 = E at *
  generalize (1 : ℚ) / 2 ^ 600 = ε at *
  refine ⟨rq t, by rw [e, hf], rq_nonneg h0, ?_, ?_⟩
  · intro y hy hxy
    have h3 := h1 y hy hxy
    have h4 : (1 + u) * t ≤ (1 + u) * (y + ε) := mul_le_mul_of_nonneg_left h3 (by linarith)
    have h5 : u * ε ≤ 1 * ε := mul_le_mul_of_nonneg_right (by linarith) hs0.le
    linarith
  · intro y hy hxy
    have h3 := h2 y hy hxy
    have h4 : (1 - u) * y ≤ (1 - u) * (t + ε) := mul_le_mul_of_nonneg_left h3 (by linarith)
    have h5 : 0 ≤ u * ε := mul_nonneg hu.le hs0.le
    linarith

end Celltree.Fl
