import Verif.Proofs.Rounding
import Verif.Proofs.LocatePoints

/-!
# Arithmetic in binary64: operations without overflow, and error bounds for the expressions in the point test
-/

namespace Celltree.Fl

theorem zero_def : (0 : Fl) = fin 0 := rfl
theorem one_def : (1 : Fl) = fin 1 := rfl
theorem neg_fin (a : ℚ) : -(fin a) = fin (-a) := rfl
theorem lt_fin (a b : ℚ) : (fin a < fin b) ↔ a < b := by rw [lt_def]; simp [Fl.lt]
theorem le_fin (a b : ℚ) : (fin a ≤ fin b) ↔ a ≤ b := by rw [le_def]; simp [Fl.le]
theorem beq_fin (a b : ℚ) : (fin a == fin b) = decide (a = b) := by
  show (Fl.le (fin a) (fin b) && Fl.le (fin b) (fin a)) = _
  simp only [Fl.le]
  rw [← Bool.decide_and, decide_eq_decide]
  exact ⟨fun h => le_antisymm h.1 h.2, fun h => ⟨h.le, h.ge⟩⟩

theorem sub_def (a b : Fl) : a - b = Fl.add a (Fl.neg b) := rfl
theorem fin_sub (a b : ℚ) : fin a - fin b = rnd (a - b) := by
  show rnd (a + -b) = _; rw [sub_eq_add_neg]
theorem fin_add (a b : ℚ) : fin a + fin b = rnd (a + b) := rfl
theorem fin_mul (a b : ℚ) : fin a * fin b = rnd (a * b) := rfl
theorem fin_div (a b : ℚ) (hb : b ≠ 0) : fin a / fin b = rnd (a / b) := by
  show (if b = 0 then infOf a else rnd (a / b)) = _; rw [if_neg hb]

theorem rnd_eq_zero {q : ℚ} (h : (rnd q == 0) = true) : rq q = 0 := by
  rw [rnd_eq] at h
  split at h
  · rw [zero_def, beq_fin] at h; simpa using h
  · split at h <;> exact absurd h (by decide)

/-- Gradual underflow: the difference of different values is not zero. -/
theorem subNonzero {ys : List Fl} (h : ∀ y ∈ ys, Rep y) : SubNonzero ys := by
  intro a ha b hb hlt
  have ra := h a ha
  have rb := h b hb
  rw [lt_def] at hlt
  cases a with
  | nan => simp [Fl.lt] at hlt
  | pinf => cases b <;> simp [Fl.lt] at hlt
  | ninf =>
    cases b with
    | nan => simp [Fl.lt] at hlt
    | ninf => simp [Fl.lt] at hlt
    | pinf => exact ⟨by decide, by decide⟩
    | fin b => exact ⟨rfl, rfl⟩
  | fin a =>
    cases b with
    | nan => simp [Fl.lt] at hlt
    | ninf => simp [Fl.lt] at hlt
    | pinf => exact ⟨rfl, rfl⟩
    | fin b =>
      have hlt : a < b := by simpa [Fl.lt] using hlt
      have hpos := rq_sub_ne ra.1 rb.1 hlt
      rw [fin_sub, fin_sub]
      constructor
      · rw [← Bool.not_eq_true]
        intro hz
        have := rnd_eq_zero hz
        rw [show a - b = -(b - a) by ring, rq_neg] at this
        linarith
      · rw [← Bool.not_eq_true]
        intro hz
        have := rnd_eq_zero hz
        linarith

/-! ## Operations without overflow -/

theorem isRep_two_pow (k : Nat) : IsRep (2 ^ k) :=
  ⟨1, k, by simp, by norm_num, by omega⟩

theorem isRep_two_pow_inv {k : Nat} (h : k ≤ 1074) : IsRep (1 / 2 ^ k) :=
  ⟨1, -k, by simp [zpow_neg], by norm_num, by omega⟩

theorem big_le : (2 : ℚ) ^ 1000 ≤ maxNat := by
  have : (2 : Nat) ^ 1000 ≤ maxNat := by unfold maxNat; decide +kernel
  exact_mod_cast this

theorem pow_le_big {k : Nat} (h : k ≤ 1000) : (2 : ℚ) ^ k ≤ maxNat :=
  (pow_le_pow_right₀ (by norm_num) h).trans big_le

theorem abs_rq_le {q : ℚ} {k : Nat} (h : |q| ≤ 2 ^ k) : |rq q| ≤ 2 ^ k := by
  rw [abs_rq]; exact rq_le (isRep_two_pow k) h

theorem le_abs_rq {q : ℚ} {k : Nat} (hk : k ≤ 1074) (h : 1 / 2 ^ k ≤ |q|) : 1 / 2 ^ k ≤ |rq q| := by
  rw [abs_rq]; exact le_rq (isRep_two_pow_inv hk) h

theorem sub_fin {a b : ℚ} {k : Nat} (hk : k ≤ 1000) (h : |a - b| ≤ 2 ^ k) : fin a - fin b = fin (rq (a - b)) := by
  rw [fin_sub, rnd_fin (h.trans (pow_le_big hk))]

theorem add_fin {a b : ℚ} {k : Nat} (hk : k ≤ 1000) (h : |a + b| ≤ 2 ^ k) : fin a + fin b = fin (rq (a + b)) := by
  rw [fin_add, rnd_fin (h.trans (pow_le_big hk))]

theorem mul_fin {a b : ℚ} {k : Nat} (hk : k ≤ 1000) (h : |a * b| ≤ 2 ^ k) : fin a * fin b = fin (rq (a * b)) := by
  rw [fin_mul, rnd_fin (h.trans (pow_le_big hk))]

theorem div_fin {a b : ℚ} {k : Nat} (hb : b ≠ 0) (hk : k ≤ 1000) (h : |a / b| ≤ 2 ^ k) :
    fin a / fin b = fin (rq (a / b)) := by
  rw [fin_div _ _ hb, rnd_fin (h.trans (pow_le_big hk))]

theorem fdiv_fin {a b : ℚ} {k : Nat} (hb : b ≠ 0) (hk : k ≤ 1000) (h : |a / b| ≤ 2 ^ k) :
    fdiv (fin a) (fin b) = .ok (fin (rq (a / b))) := by
  unfold fdiv
  rw [zero_def, beq_fin, decide_eq_false hb]
  simp only [Bool.false_eq_true, if_false]
  rw [div_fin hb hk h]

theorem abs_sub_le_pow {a b : ℚ} {k : Nat} (ha : |a| ≤ 2 ^ k) (hb : |b| ≤ 2 ^ k) : |a - b| ≤ 2 ^ (k + 1) := by
  calc |a - b| ≤ |a| + |b| := abs_sub a b
    _ ≤ 2 ^ k + 2 ^ k := add_le_add ha hb
    _ = _ := by ring

theorem abs_add_le_pow {a b : ℚ} {k : Nat} (ha : |a| ≤ 2 ^ k) (hb : |b| ≤ 2 ^ k) : |a + b| ≤ 2 ^ (k + 1) := by
  calc |a + b| ≤ |a| + |b| := abs_add_le a b
    _ ≤ 2 ^ k + 2 ^ k := add_le_add ha hb
    _ = _ := by ring

theorem abs_mul_le_pow {a b : ℚ} {j k : Nat} (ha : |a| ≤ 2 ^ j) (hb : |b| ≤ 2 ^ k) : |a * b| ≤ 2 ^ (j + k) := by
  rw [abs_mul, pow_add]
  exact mul_le_mul ha hb (abs_nonneg _) (by positivity)

theorem abs_le_pow_mono {a : ℚ} {j k : Nat} (h : j ≤ k) (ha : |a| ≤ 2 ^ j) : |a| ≤ 2 ^ k :=
  ha.trans (pow_le_pow_right₀ (by norm_num) h)

/-! ## Error bounds -/

theorem u_le : u ≤ 1 / 1000000 := by unfold u; norm_num

/-- Relative error for numbers that are not tiny. -/
theorem rq_rel {x : ℚ} (h : 1 / 2 ^ 1000 ≤ |x|) : |rq x - x| ≤ u * |x| := by
  rcases rq_err x with h1 | h1
  · exact h1
  · refine h1.trans (le_trans ?_ (mul_le_mul_of_nonneg_left h u_pos.le))
    unfold eta u
    rw [div_mul_div_comm, ← pow_add, mul_one]
    exact div_le_div_of_nonneg_left (by norm_num) (by positivity) (pow_le_pow_right₀ (by norm_num) (by norm_num))

theorem rq_between {x : ℚ} (h : 1 / 2 ^ 1000 ≤ x) : 99 / 100 * x ≤ rq x ∧ rq x ≤ 101 / 100 * x := by
  have hx : 0 < x := lt_of_lt_of_le (by positivity) h
  have := rq_rel (x := x) (by rwa [abs_of_pos hx])
  rw [abs_of_pos hx, abs_le] at this
  have hu := u_le
  constructor <;> nlinarith

/-- Absolute error under a bound. -/
theorem rq_abs {x R : ℚ} (h : |x| ≤ R) (hR : 1 / 2 ^ 1000 ≤ R) : |rq x - x| ≤ u * R := by
  have hu := u_pos
  rcases rq_err x with h1 | h1
  · exact h1.trans (mul_le_mul_of_nonneg_left h hu.le)
  · refine h1.trans (le_trans ?_ (mul_le_mul_of_nonneg_left hR hu.le))
    unfold eta u
    rw [div_mul_div_comm, ← pow_add, mul_one]
    exact div_le_div_of_nonneg_left (by norm_num) (by positivity) (pow_le_pow_right₀ (by norm_num) (by norm_num))

/-- Error of a product of two rounded factors. -/
theorem mul_err {x y R S : ℚ} (hx : |x| ≤ R) (hy : |y| ≤ S) (hR : 1 / 2 ^ 500 ≤ R) (hS : 1 / 2 ^ 500 ≤ S) :
    |rq (rq x * rq y) - x * y| ≤ 301 / 100 * u * (R * S) := by
  have hu := u_pos
  have hu' := u_le
  have hR0 : 0 < R := lt_of_lt_of_le (by positivity) hR
  have hS0 : 0 < S := lt_of_lt_of_le (by positivity) hS
  have hmono : (1 : ℚ) / 2 ^ 1000 ≤ 1 / 2 ^ 500 :=
    div_le_div_of_nonneg_left (by norm_num) (by positivity) (pow_le_pow_right₀ (by norm_num) (by norm_num))
  have e1 := rq_abs hx (hmono.trans hR)
  have e2 := rq_abs hy (hmono.trans hS)
  set X := rq x
  set Y := rq y
  have hX : |X| ≤ (1 + u) * R := by
    calc |X| = |(X - x) + x| := by ring_nf
      _ ≤ |X - x| + |x| := abs_add_le _ _
      _ ≤ u * R + R := add_le_add e1 hx
      _ = _ := by ring
  have hY : |Y| ≤ (1 + u) * S := by
    calc |Y| = |(Y - y) + y| := by ring_nf
      _ ≤ |Y - y| + |y| := abs_add_le _ _
      _ ≤ u * S + S := add_le_add e2 hy
      _ = _ := by ring
  have hRS : 0 < R * S := mul_pos hR0 hS0
  have h1 : |X * Y - x * y| ≤ (2 + u) * u * (R * S) := by
    calc |X * Y - x * y| = |X * (Y - y) + (X - x) * y| := by ring_nf
      _ ≤ |X| * |Y - y| + |X - x| * |y| := by rw [← abs_mul, ← abs_mul]; exact abs_add_le _ _
      _ ≤ ((1 + u) * R) * (u * S) + (u * R) * S := by
          refine add_le_add (mul_le_mul hX e2 (abs_nonneg _) (by positivity)) (mul_le_mul e1 hy (abs_nonneg _) (by positivity))
      _ = _ := by ring
  have hXY : |X * Y| ≤ (1 + u) ^ 2 * (R * S) := by
    rw [abs_mul]
    calc |X| * |Y| ≤ ((1 + u) * R) * ((1 + u) * S) := mul_le_mul hX hY (abs_nonneg _) (by positivity)
      _ = _ := by ring
  have hRS' : 1 / 2 ^ 1000 ≤ (1 + u) ^ 2 * (R * S) := by
    calc (1 : ℚ) / 2 ^ 1000 = 1 / 2 ^ 500 * (1 / 2 ^ 500) := by rw [div_mul_div_comm, ← pow_add, mul_one]
      _ ≤ R * S := mul_le_mul hR hS (by positivity) hR0.le
      _ ≤ (1 + u) ^ 2 * (R * S) := le_mul_of_one_le_left hRS.le (by nlinarith)
  have h2 := rq_abs hXY hRS'
  calc |rq (X * Y) - x * y| = |(rq (X * Y) - X * Y) + (X * Y - x * y)| := by ring_nf
    _ ≤ u * ((1 + u) ^ 2 * (R * S)) + (2 + u) * u * (R * S) := (abs_add_le _ _).trans (add_le_add h2 h1)
    _ = ((1 + u) ^ 2 + 2 + u) * (u * (R * S)) := by ring
    _ ≤ 301 / 100 * (u * (R * S)) := by
        refine mul_le_mul_of_nonneg_right ?_ (by positivity)
        nlinarith
    _ = _ := by ring

/-- Error of the cross product of two rounded vectors. -/
theorem cross_err {ux uy vx vy R S : ℚ} (h1 : |ux| ≤ R) (h2 : |vx| ≤ R) (h3 : |uy| ≤ S) (h4 : |vy| ≤ S)
    (hR : 1 / 2 ^ 500 ≤ R) (hS : 1 / 2 ^ 500 ≤ S) :
    |rq (rq (rq ux * rq vy) - rq (rq uy * rq vx)) - (ux * vy - uy * vx)| ≤ 9 * u * (R * S) := by
  have hu := u_pos
  have hu' := u_le
  have hR0 : 0 < R := lt_of_lt_of_le (by positivity) hR
  have hS0 : 0 < S := lt_of_lt_of_le (by positivity) hS
  have hRS : 0 < R * S := mul_pos hR0 hS0
  have e1 := mul_err h1 h4 hR hS
  have e2 := mul_err h3 h2 hS hR
  rw [mul_comm S R] at e2
  set a := rq (rq ux * rq vy)
  set b := rq (rq uy * rq vx)
  have h5 : |(a - b) - (ux * vy - uy * vx)| ≤ 602 / 100 * u * (R * S) := by
    calc |(a - b) - (ux * vy - uy * vx)| = |(a - ux * vy) - (b - uy * vx)| := by ring_nf
      _ ≤ |a - ux * vy| + |b - uy * vx| := abs_sub _ _
      _ ≤ _ := by linarith
  have h6 : |ux * vy - uy * vx| ≤ 2 * (R * S) := by
    calc |ux * vy - uy * vx| ≤ |ux * vy| + |uy * vx| := abs_sub _ _
      _ ≤ R * S + S * R := by
          rw [abs_mul, abs_mul]
          exact add_le_add (mul_le_mul h1 h4 (abs_nonneg _) hR0.le) (mul_le_mul h3 h2 (abs_nonneg _) hS0.le)
      _ = _ := by ring
  have h7 : |a - b| ≤ 201 / 100 * (R * S) := by
    calc |a - b| = |((a - b) - (ux * vy - uy * vx)) + (ux * vy - uy * vx)| := by ring_nf
      _ ≤ 602 / 100 * u * (R * S) + 2 * (R * S) := (abs_add_le _ _).trans (add_le_add h5 h6)
      _ = (602 / 100 * u + 2) * (R * S) := by ring
      _ ≤ _ := mul_le_mul_of_nonneg_right (by linarith) hRS.le
  have h8 : 1 / 2 ^ 1000 ≤ 201 / 100 * (R * S) := by
    calc (1 : ℚ) / 2 ^ 1000 = 1 / 2 ^ 500 * (1 / 2 ^ 500) := by rw [div_mul_div_comm, ← pow_add, mul_one]
      _ ≤ R * S := mul_le_mul hR hS (by positivity) hR0.le
      _ ≤ _ := by linarith
  have h9 := rq_abs h7 h8
  calc |rq (a - b) - (ux * vy - uy * vx)| = |(rq (a - b) - (a - b)) + ((a - b) - (ux * vy - uy * vx))| := by ring_nf
    _ ≤ u * (201 / 100 * (R * S)) + 602 / 100 * u * (R * S) := (abs_add_le _ _).trans (add_le_add h9 h5)
    _ = 803 / 100 * (u * (R * S)) := by ring
    _ ≤ 9 * (u * (R * S)) := mul_le_mul_of_nonneg_right (by norm_num) (by positivity)
    _ = _ := by ring

/-- Error of the place where the ray meets a side, relative to the first end of the side. -/
theorem ray_err {dx py dy D : ℚ} (h1 : |py| ≤ |dy|) (h2 : |dx| ≤ D) (h3 : 1 / 2 ^ 200 ≤ |dy|) (hD : 1 / 2 ^ 200 ≤ D) :
    |rq (rq (rq dx * rq py) / rq dy) - dx * py / dy| ≤ 6 * u * D := by
  have hu := u_pos
  have hu' := u_le
  have hD0 : 0 < D := lt_of_lt_of_le (by positivity) hD
  have hdy : 0 < |dy| := lt_of_lt_of_le (by positivity) h3
  have hm : ∀ k, 200 ≤ k → (1 : ℚ) / 2 ^ k ≤ 1 / 2 ^ 200 := fun k hk =>
    div_le_div_of_nonneg_left (by norm_num) (by positivity) (pow_le_pow_right₀ (by norm_num) hk)
  have e1 := rq_abs h2 ((hm 1000 (by norm_num)).trans hD)
  have e2 := rq_abs h1 ((hm 1000 (by norm_num)).trans h3)
  have e3 := rq_rel ((hm 1000 (by norm_num)).trans h3)
  have hPY : |rq py| ≤ |rq dy| := by rw [abs_rq, abs_rq]; exact rq_mono h1
  set X := rq dx
  set P := rq py
  set Y := rq dy
  have hdy0 : dy ≠ 0 := abs_pos.1 hdy
  have hY : (1 - u) * |dy| ≤ |Y| := by
    have : |dy| ≤ |Y| + |Y - dy| := by
      calc |dy| = |Y - (Y - dy)| := by ring_nf
        _ ≤ _ := abs_sub _ _
    linarith
  have hYpos : 0 < |Y| := lt_of_lt_of_le (mul_pos (by linarith) hdy) hY
  have hY0 : Y ≠ 0 := abs_pos.1 hYpos
  have hX : |X| ≤ (1 + u) * D := by
    calc |X| = |(X - dx) + dx| := by ring_nf
      _ ≤ |X - dx| + |dx| := abs_add_le _ _
      _ ≤ u * D + D := add_le_add e1 h2
      _ = _ := by ring
  have hr : |P / Y| ≤ 1 := by rw [abs_div, div_le_one hYpos]; exact hPY
  have hρ : |py / dy| ≤ 1 := by rw [abs_div, div_le_one hdy]; exact h1
  have hrρ : |P / Y - py / dy| ≤ 201 / 100 * u := by
    have : P / Y - py / dy = ((P - py) - (py / dy) * (Y - dy)) / Y := by field_simp; ring
    rw [this, abs_div, div_le_iff₀ hYpos]
    calc |(P - py) - (py / dy) * (Y - dy)| ≤ |P - py| + |py / dy| * |Y - dy| := by rw [← abs_mul]; exact abs_sub _ _
      _ ≤ u * |dy| + 1 * (u * |dy|) := add_le_add e2 (mul_le_mul hρ e3 (abs_nonneg _) zero_le_one)
      _ = 2 * u * |dy| := by ring
      _ ≤ 201 / 100 * u * ((1 - u) * |dy|) := by
          rw [← mul_assoc]
          refine mul_le_mul_of_nonneg_right ?_ hdy.le
          nlinarith
      _ ≤ 201 / 100 * u * |Y| := mul_le_mul_of_nonneg_left hY (by positivity)
  -- the product
  have hXP : |X * P| ≤ (1 + u) * D * |Y| := by
    rw [abs_mul]; exact mul_le_mul hX hPY (abs_nonneg _) (by positivity)
  have hsmall : 1 / 2 ^ 1000 ≤ (1 + u) * D * |Y| := by
    have h5 : (1 : ℚ) / 2 ^ 201 ≤ |Y| := by
      refine le_trans ?_ hY
      calc (1 : ℚ) / 2 ^ 201 = 1 / 2 * (1 / 2 ^ 200) := by rw [div_mul_div_comm, ← pow_succ', mul_one]
        _ ≤ (1 - u) * |dy| := mul_le_mul (by linarith) h3 (by positivity) (by linarith)
    calc (1 : ℚ) / 2 ^ 1000 ≤ 1 / 2 ^ 401 :=
          div_le_div_of_nonneg_left (by norm_num) (by positivity) (pow_le_pow_right₀ (by norm_num) (by norm_num))
      _ = 1 / 2 ^ 200 * (1 / 2 ^ 201) := by rw [div_mul_div_comm, ← pow_add, mul_one]
      _ ≤ ((1 + u) * D) * |Y| := by
          refine mul_le_mul (hD.trans (le_mul_of_one_le_left hD0.le (by linarith))) h5 (by positivity) (by positivity)
  have e4 := rq_abs hXP hsmall
  set m := rq (X * P)
  have hm' : |m / Y - X * (P / Y)| ≤ u * ((1 + u) * D) := by
    have : m / Y - X * (P / Y) = (m - X * P) / Y := by field_simp
    rw [this, abs_div, div_le_iff₀ hYpos]
    calc |m - X * P| ≤ u * ((1 + u) * D * |Y|) := e4
      _ = _ := by ring
  have hmY : |m / Y| ≤ (1 + u) ^ 2 * D := by
    calc |m / Y| = |(m / Y - X * (P / Y)) + X * (P / Y)| := by ring_nf
      _ ≤ |m / Y - X * (P / Y)| + |X| * |P / Y| := by rw [← abs_mul]; exact abs_add_le _ _
      _ ≤ u * ((1 + u) * D) + ((1 + u) * D) * 1 := add_le_add hm' (mul_le_mul hX hr (abs_nonneg _) (by positivity))
      _ = _ := by ring
  have e5 := rq_abs hmY (((hm 1000 (by norm_num)).trans hD).trans (le_mul_of_one_le_left hD0.le (by nlinarith)))
  calc |rq (m / Y) - dx * py / dy|
      = |(rq (m / Y) - m / Y) + (m / Y - X * (P / Y)) + X * (P / Y - py / dy) + (X - dx) * (py / dy)| := by ring_nf
    _ ≤ |rq (m / Y) - m / Y| + |m / Y - X * (P / Y)| + |X| * |P / Y - py / dy| + |X - dx| * |py / dy| := by
        rw [← abs_mul, ← abs_mul]
        refine (abs_add_le _ _).trans (add_le_add ((abs_add_le _ _).trans (add_le_add (abs_add_le _ _) le_rfl)) le_rfl)
    _ ≤ u * ((1 + u) ^ 2 * D) + u * ((1 + u) * D) + ((1 + u) * D) * (201 / 100 * u) + (u * D) * 1 :=
        add_le_add (add_le_add (add_le_add e5 hm') (mul_le_mul hX hrρ (abs_nonneg _) (by positivity)))
          (mul_le_mul e1 hρ (abs_nonneg _) (by positivity))
    _ = ((1 + u) ^ 2 + (1 + u) + (1 + u) * (201 / 100) + 1) * (u * D) := by ring
    _ ≤ 6 * (u * D) := mul_le_mul_of_nonneg_right (by nlinarith) (by positivity)
    _ = _ := by ring

end Celltree.Fl
