import Verif.Proofs.FloatBuild
import Verif.Proofs.WeightRows

/-!
# The weights of a triangle in binary64
-/

set_option linter.unusedSectionVars false

namespace Celltree.Fl

/-- The cross product of two differences. -/
theorem cross_fl {a b p : Pt ℚ} (ha : Bnd (2 ^ 200) a) (hb : Bnd (2 ^ 200) b) (hp : Bnd (2 ^ 200) p) :
    cross (toVector (fp a) (fp b)) (toVector (fp a) (fp p)) = fin (crossR (b.x - a.x) (b.y - a.y) (p.x - a.x) (p.y - a.y)) ∧
      |crossR (b.x - a.x) (b.y - a.y) (p.x - a.x) (p.y - a.y)| ≤ 2 ^ 403 := by
  unfold cross toVector fp crossR
  simp only
  have u1 := abs_sub_le_pow hb.1 ha.1
  have u2 := abs_sub_le_pow hb.2 ha.2
  have v1 := abs_sub_le_pow hp.1 ha.1
  have v2 := abs_sub_le_pow hp.2 ha.2
  rw [sub_fin (by norm_num) u1, sub_fin (by norm_num) u2, sub_fin (by norm_num) v1, sub_fin (by norm_num) v2]
  have u1 := abs_rq_le u1
  have u2 := abs_rq_le u2
  have v1 := abs_rq_le v1
  have v2 := abs_rq_le v2
  have m1 := abs_mul_le_pow u1 v2
  have m2 := abs_mul_le_pow u2 v1
  rw [mul_fin (by norm_num) m1, mul_fin (by norm_num) m2]
  have m1 := abs_rq_le m1
  have m2 := abs_rq_le m2
  have c := abs_sub_le_pow m1 m2
  rw [sub_fin (by norm_num) c]
  exact ⟨rfl, abs_rq_le c⟩

/-- A quotient of areas. -/
theorem quot_fl {A X Â X' D : ℚ} (hκ : D * D ≤ 2 ^ 43 * A) (hA0 : 0 < A) (hAD : A ≤ 2 * (D * D)) (hX0 : 0 ≤ X)
    (hX : X ≤ 3 / 2 * A) (hÂ : |Â - A| ≤ 9 * u * (D * D)) (hX' : |X' - X| ≤ 36 * u * (D * D)) (hX'0 : 0 ≤ X')
    (hbig : Â ≤ 2 ^ 403) : 1 / 2 * A ≤ Â ∧ |rq (rq (1 / Â) * X') - X / A| ≤ 64 * u * (D * D / A) ∧
      0 ≤ rq (rq (1 / Â) * X') ∧ rq (rq (1 / Â) * X') ≤ 156 / 100 ∧ rq (1 / Â) * X' ≤ 2 := by
  have hu := u_pos
  have hu' := u_le
  have hD : 0 < D * D := by linarith
  have h13 : u * (D * D) ≤ 1 / 2 ^ 10 * A := by
    calc u * (D * D) ≤ u * (2 ^ 43 * A) := mul_le_mul_of_nonneg_left hκ hu.le
      _ = 1 / 2 ^ 10 * A := by unfold u; ring
  have a1 := abs_le.1 hÂ
  have hÂl : 99 / 100 * A ≤ Â := by linarith
  have hÂ0 : 0 < Â := by linarith
  set κ := D * D / A with hκd
  have eκ : D * D = κ * A := by rw [hκd]; field_simp
  have hκ1 : 1 / 2 ≤ κ := by rw [hκd, le_div_iff₀ hA0]; linarith
  have huκ : u * κ ≤ 1 / 2 ^ 10 := by
    rw [eκ] at h13
    have : u * κ * A ≤ 1 / 2 ^ 10 * A := by linarith
    exact le_of_mul_le_mul_right this hA0
  -- the exact quotient of the computed areas
  have hr : X / A ≤ 3 / 2 := by rw [div_le_iff₀ hA0]; exact hX
  have hr0 : 0 ≤ X / A := div_nonneg hX0 hA0.le
  have e1 : X' / Â - X / A = ((X' - X) - X / A * (Â - A)) / Â := by field_simp; ring
  have q1 : |X' / Â - X / A| ≤ 51 * u * κ := by
    rw [e1, abs_div, abs_of_pos hÂ0, div_le_iff₀ hÂ0]
    calc |(X' - X) - X / A * (Â - A)| ≤ |X' - X| + X / A * |Â - A| := by
          rw [← abs_of_nonneg hr0, ← abs_mul, abs_of_nonneg hr0]; exact abs_sub _ _
      _ ≤ 36 * u * (D * D) + 3 / 2 * (9 * u * (D * D)) :=
          add_le_add hX' (mul_le_mul hr hÂ (abs_nonneg _) (by norm_num))
      _ = 99 / 2 * (u * κ) * A := by rw [eκ]; ring
      _ ≤ 51 * u * κ * (99 / 100 * A) := by
          have : 0 ≤ u * κ * A := by positivity
          linarith
      _ ≤ 51 * u * κ * Â := mul_le_mul_of_nonneg_left hÂl (by positivity)
  have q1' := abs_le.1 q1
  have hq0 : 0 ≤ X' / Â := div_nonneg hX'0 hÂ0.le
  have hqle : X' / Â ≤ 1551 / 1000 := by linarith
  -- the reciprocal
  have hinv : 1 / 2 ^ 1000 ≤ 1 / Â := by
    refine one_div_le_one_div_of_le hÂ0 (hbig.trans ?_)
    exact pow_le_pow_right₀ (by norm_num) (by norm_num)
  have i1 := rq_rel' hinv
  have hi0 : 0 ≤ rq (1 / Â) := rq_nonneg (by positivity)
  have p1 : |rq (1 / Â) * X' - X' / Â| ≤ u * (1551 / 1000) := by
    have e : rq (1 / Â) * X' - X' / Â = (rq (1 / Â) - 1 / Â) * Â * (X' / Â) := by field_simp
    rw [e, abs_mul, abs_of_nonneg hq0]
    refine mul_le_mul ?_ hqle hq0 hu.le
    rw [abs_mul, abs_of_pos hÂ0, ← le_div_iff₀ hÂ0, abs_le, ← mul_one_div]
    constructor <;> linarith
  have p1' := abs_le.1 p1
  have hp0 : 0 ≤ rq (1 / Â) * X' := mul_nonneg hi0 hX'0
  have hple : rq (1 / Â) * X' ≤ 1552 / 1000 := by linarith
  have r1 := rq_abs (x := rq (1 / Â) * X') (R := 1552 / 1000) (by rwa [abs_of_nonneg hp0])
    ((inv_le_inv_pow (j := 0) (by norm_num)).trans (by norm_num))
  have r1' := abs_le.1 r1
  have huk2 : u ≤ 2 * (u * κ) := by
    have := mul_le_mul_of_nonneg_left hκ1 hu.le
    linarith
  refine ⟨by linarith, ?_, rq_nonneg hp0, by linarith, by linarith⟩
  rw [abs_le]
  constructor <;> linarith

variable {a b c p : Pt ℚ} {D : ℚ}

/-- The weights of a triangle are close to the exact ones. -/
theorem triangleWeights_fl (ha : Bnd (2 ^ 200) a) (hb : Bnd (2 ^ 200) b) (hc : Bnd (2 ^ 200) c) (hp : Bnd (2 ^ 200) p)
    (hD : 1 / 2 ^ 200 ≤ D) (hb1 : |b.x - a.x| ≤ D) (hb2 : |b.y - a.y| ≤ D) (hc1 : |c.x - a.x| ≤ D) (hc2 : |c.y - a.y| ≤ D)
    (hp1 : |p.x - a.x| ≤ 2 * D) (hp2 : |p.y - a.y| ≤ 2 * D) (hκ : D * D ≤ 2 ^ 43 * |orient a b c|)
    (hw1 : |orient a c p| ≤ 3 / 2 * |orient a b c|) (hw2 : |orient a b p| ≤ 3 / 2 * |orient a b c|) :
    ∃ w0 w1 w2, triangleWeights ⟨fp a, fp b, fp c⟩ (fp p) = .ok [fin w0, fin w1, fin w2] ∧
      |w1 - (|orient a c p|) / (|orient a b c|)| ≤ 64 * u * (D * D / |orient a b c|) ∧
      |w2 - (|orient a b p|) / (|orient a b c|)| ≤ 64 * u * (D * D / |orient a b c|) ∧ 0 ≤ w1 ∧ 0 ≤ w2 ∧
      |w0 + w1 + w2 - 1| ≤ 4 * u := by
  have hu := u_pos
  have hu' := u_le
  have hD0 : 0 < D := lt_of_lt_of_le (by positivity) hD
  have hDD : 0 < D * D := mul_pos hD0 hD0
  have hA0 : 0 < |orient a b c| := by
    have := hDD.trans_le hκ
    exact pos_of_mul_pos_right this (by norm_num)
  obtain ⟨c1, n1⟩ := cross_fl ha hb hp
  obtain ⟨c2, n2⟩ := cross_fl ha hc hp
  obtain ⟨c3, n3⟩ := cross_fl ha hb hc
  have hD500 : 1 / 2 ^ 500 ≤ D := (inv_le_inv_pow (by norm_num)).trans hD
  have hD2 : 1 / 2 ^ 500 ≤ 2 * D := by linarith
  have b1 : |b.x - a.x| ≤ 2 * D := by linarith
  have b2 : |b.y - a.y| ≤ 2 * D := by linarith
  have b3 : |c.x - a.x| ≤ 2 * D := by linarith
  have b4 : |c.y - a.y| ≤ 2 * D := by linarith
  have e1 := cross_err b1 hp1 b2 hp2 hD2 hD2
  have e2 := cross_err b3 hp1 b4 hp2 hD2 hD2
  have e3 := cross_err hb1 hc1 hb2 hc2 hD500 hD500
  have o1 : (b.x - a.x) * (p.y - a.y) - (b.y - a.y) * (p.x - a.x) = orient a b p := by unfold orient; ring
  have o2 : (c.x - a.x) * (p.y - a.y) - (c.y - a.y) * (p.x - a.x) = orient a c p := by unfold orient; ring
  have o3 : (b.x - a.x) * (c.y - a.y) - (b.y - a.y) * (c.x - a.x) = orient a b c := by unfold orient; ring
  rw [o1] at e1
  rw [o2] at e2
  rw [o3] at e3
  change |crossR (b.x - a.x) (b.y - a.y) (p.x - a.x) (p.y - a.y) - _| ≤ _ at e1
  change |crossR (c.x - a.x) (c.y - a.y) (p.x - a.x) (p.y - a.y) - _| ≤ _ at e2
  change |crossR (b.x - a.x) (b.y - a.y) (c.x - a.x) (c.y - a.y) - _| ≤ _ at e3
  have hAD : |orient a b c| ≤ 2 * (D * D) := by
    rw [← o3]
    calc _ ≤ |(b.x - a.x) * (c.y - a.y)| + |(b.y - a.y) * (c.x - a.x)| := abs_sub _ _
      _ ≤ D * D + D * D := by
          rw [abs_mul, abs_mul]
          exact add_le_add (mul_le_mul hb1 hc2 (abs_nonneg _) hD0.le) (mul_le_mul hb2 hc1 (abs_nonneg _) hD0.le)
      _ = _ := by ring
  generalize crossR (b.x - a.x) (b.y - a.y) (p.x - a.x) (p.y - a.y) = Y at *
  generalize crossR (c.x - a.x) (c.y - a.y) (p.x - a.x) (p.y - a.y) = X at *
  generalize crossR (b.x - a.x) (b.y - a.y) (c.x - a.x) (c.y - a.y) = Z at *
  have abs3 : ∀ {x y e : ℚ}, |x - y| ≤ e → |(|x| - |y|)| ≤ e := fun h => (abs_abs_sub_abs_le_abs_sub _ _).trans h
  have e1' : |(|Y| - |orient a b p|)| ≤ 36 * u * (D * D) := (abs3 e1).trans (by linarith)
  have e2' : |(|X| - |orient a c p|)| ≤ 36 * u * (D * D) := (abs3 e2).trans (by linarith)
  have q1 := quot_fl hκ hA0 hAD (abs_nonneg _) hw2 (abs3 e3) e1' (abs_nonneg _) n3
  have q2 := quot_fl hκ hA0 hAD (abs_nonneg _) hw1 (abs3 e3) e2' (abs_nonneg _) n3
  have hZ0 : 0 < |Z| := by linarith [q1.1]
  have hZne : |Z| ≠ 0 := hZ0.ne'
  have hZlow : (1 : ℚ) / 2 ^ 500 ≤ |Z| := by
    refine le_trans ?_ q1.1
    have h1 : (1 : ℚ) / 2 ^ 400 ≤ D * D := by
      calc (1 : ℚ) / 2 ^ 400 = 1 / 2 ^ 200 * (1 / 2 ^ 200) := by rw [div_mul_div_comm, ← pow_add, mul_one]
        _ ≤ _ := mul_le_mul hD hD (by positivity) hD0.le
    have h2 : (1 : ℚ) / 2 ^ 444 = 1 / 2 ^ 400 * (1 / 2 ^ 44) := by rw [div_mul_div_comm, ← pow_add, mul_one]
    have h3 : (1 : ℚ) / 2 ^ 500 ≤ 1 / 2 ^ 444 := inv_le_inv_pow (by norm_num)
    rw [h2] at h3
    generalize (1 : ℚ) / 2 ^ 400 = T at *
    generalize (1 : ℚ) / 2 ^ 500 = T' at *
    linarith
  have hinv : |1 / (|Z|)| ≤ 2 ^ 500 := by
    rw [abs_of_pos (by positivity)]
    calc 1 / |Z| ≤ 1 / (1 / 2 ^ 500) := one_div_le_one_div_of_le (by positivity) hZlow
      _ = _ := by rw [one_div_one_div]
  have hd := fdiv_fin (a := 1) (b := |Z|) (k := 500) hZne (by norm_num) hinv
  have hi0 : 0 ≤ rq (1 / |Z|) := rq_nonneg (by positivity)
  have hm1 := mul_fin (a := rq (1 / |Z|)) (b := |Y|) (k := 1) (by norm_num)
    (abs_le_of (mul_nonneg hi0 (abs_nonneg _)) (by linarith [q1.2.2.2.2]))
  have hm2 := mul_fin (a := rq (1 / |Z|)) (b := |X|) (k := 1) (by norm_num)
    (abs_le_of (mul_nonneg hi0 (abs_nonneg _)) (by linarith [q2.2.2.2.2]))
  obtain ⟨_, g1, g2, g3, _⟩ := q1
  obtain ⟨_, f1, f2, f3, _⟩ := q2
  generalize rq (rq (1 / |Z|) * |Y|) = w at *
  generalize rq (rq (1 / |Z|) * |X|) = v at *
  have s1 := sub_fin (a := 1) (b := v) (k := 0) (by norm_num) (by rw [abs_le]; constructor <;> linarith)
  have t1 := rq_abs (x := 1 - v) (R := 1) (by rw [abs_le]; constructor <;> linarith)
    ((inv_le_inv_pow (j := 0) (by norm_num)).trans (by norm_num))
  have t1' := abs_le.1 t1
  have s2 := sub_fin (a := rq (1 - v)) (b := w) (k := 2) (by norm_num) (by rw [abs_le]; constructor <;> linarith)
  have t2 := rq_abs (x := rq (1 - v) - w) (R := 3) (by rw [abs_le]; constructor <;> linarith)
    ((inv_le_inv_pow (j := 0) (by norm_num)).trans (by norm_num))
  have t2' := abs_le.1 t2
  refine ⟨rq (rq (1 - v) - w), v, w, ?_, f1, g1, f2, g2, ?_⟩
  · unfold triangleWeights
    simp only [c1, c2, c3, fabs_fin, one_def, hd, ok_bind, hm1, hm2, s1, s2]
  · rw [abs_le]
    constructor <;> linarith

/-- The exact barycentric coordinates. -/
theorem bary_eq (h : orient a b c ≠ 0) :
    p.x = a.x + orient a p c / orient a b c * (b.x - a.x) + orient a b p / orient a b c * (c.x - a.x) ∧
    p.y = a.y + orient a p c / orient a b c * (b.y - a.y) + orient a b p / orient a b c * (c.y - a.y) := by
  have e : ∀ s t d : ℚ, d ≠ 0 → s / d * t = s * t / d := fun s t d _ => by ring
  rw [e _ _ _ h, e _ _ _ h, e _ _ _ h, e _ _ _ h]
  constructor
  · field_simp
    unfold orient
    ring
  · field_simp
    unfold orient
    ring

theorem orient_diff {q : Pt ℚ} {τ : ℚ} (hb1 : |b.x - a.x| ≤ D) (hb2 : |b.y - a.y| ≤ D) (h1 : |p.x - q.x| ≤ 2 * τ)
    (h2 : |p.y - q.y| ≤ 2 * τ) : |orient a b p - orient a b q| ≤ 4 * τ * D := by
  have hD : 0 ≤ D := (abs_nonneg _).trans hb1
  have e : orient a b p - orient a b q = (b.x - a.x) * (p.y - q.y) - (b.y - a.y) * (p.x - q.x) := by unfold orient; ring
  rw [e]
  calc _ ≤ |(b.x - a.x) * (p.y - q.y)| + |(b.y - a.y) * (p.x - q.x)| := abs_sub _ _
    _ ≤ D * (2 * τ) + D * (2 * τ) := by
        rw [abs_mul, abs_mul]
        exact add_le_add (mul_le_mul hb1 h2 (abs_nonneg _) hD) (mul_le_mul hb2 h1 (abs_nonneg _) hD)
    _ = _ := by ring

/-- A weight is close to the exact barycentric coordinate. -/
theorem weight_close {o w e ρ : ℚ} (h0 : -ρ ≤ o) (hρ : 0 ≤ ρ) (hw : |w - (|o|)| ≤ e) : |w - o| ≤ e + 2 * ρ := by
  have h : |(|o| - o)| ≤ 2 * ρ := by
    rcases le_total 0 o with h | h
    · rw [abs_of_nonneg h, sub_self, abs_zero]; linarith
    · rw [abs_of_nonpos h, abs_le]; constructor <;> linarith
  calc |w - o| = |(w - |o|) + (|o| - o)| := by ring_nf
    _ ≤ _ := (abs_add_le _ _).trans (add_le_add hw h)

/-- The weights of a triangle for a point close to it, sum to one and nearly reproduce the point. -/
theorem triangle_near {M τ κ : ℚ} {q : Pt ℚ} (hM' : M ≤ 2 ^ 200) (hM0 : 0 ≤ M) (ha : Bnd M a) (hb : Bnd M b) (hc : Bnd M c)
    (hp : Bnd (2 ^ 200) p) (hD : 1 / 2 ^ 200 ≤ D) (hb1 : |b.x - a.x| ≤ D) (hb2 : |b.y - a.y| ≤ D) (hc1 : |c.x - a.x| ≤ D)
    (hc2 : |c.y - a.y| ≤ D) (hq1 : |q.x - a.x| ≤ D) (hq2 : |q.y - a.y| ≤ D) (hA : orient a b c ≠ 0)
    (q0 : 0 ≤ orient b c q / orient a b c) (q1 : 0 ≤ orient c a q / orient a b c) (q2 : 0 ≤ orient a b q / orient a b c)
    (hτ : slack M D ≤ τ) (h1 : |p.x - q.x| ≤ 2 * τ) (h2 : |p.y - q.y| ≤ 2 * τ) (hfat : 16 * τ * D ≤ |orient a b c|)
    (hκ : D * D ≤ κ * |orient a b c|) :
    ∃ w0 w1 w2, triangleWeights ⟨fp a, fp b, fp c⟩ (fp p) = .ok [fin w0, fin w1, fin w2] ∧ 0 ≤ w1 ∧ 0 ≤ w2 ∧
      |w0 + w1 + w2 - 1| ≤ 4 * u ∧ |w0 * a.x + w1 * b.x + w2 * c.x - p.x| ≤ 18 * κ * τ ∧
      |w0 * a.y + w1 * b.y + w2 * c.y - p.y| ≤ 18 * κ * τ ∧ -(27 * κ * τ) ≤ w0 * D := by
  have hu := u_pos
  have hD0 : 0 < D := lt_of_lt_of_le (by positivity) hD
  have hA0 : 0 < |orient a b c| := abs_pos.2 hA
  rw [slack_eq] at hτ
  have hτ0 : 0 < τ := lt_of_lt_of_le (by positivity) hτ
  have hAD : |orient a b c| ≤ 2 * (D * D) := by
    unfold orient
    calc _ ≤ |(b.x - a.x) * (c.y - a.y)| + |(b.y - a.y) * (c.x - a.x)| := abs_sub _ _
      _ ≤ D * D + D * D := by
          rw [abs_mul, abs_mul]
          exact add_le_add (mul_le_mul hb1 hc2 (abs_nonneg _) hD0.le) (mul_le_mul hb2 hc1 (abs_nonneg _) hD0.le)
      _ = _ := by ring
  have hτD : 8 * τ ≤ D := by
    have : 8 * τ * D ≤ D * D := by linarith
    exact le_of_mul_le_mul_right this hD0
  have hκ43 : D * D ≤ 2 ^ 43 * |orient a b c| := by
    have h3 : 64 * u * D ≤ τ := by
      have := mul_nonneg hu.le hM0
      linarith
    have h4 := mul_le_mul_of_nonneg_right h3 hD0.le
    have h5 : 1024 * u * (D * D) ≤ |orient a b c| := by linarith
    have h6 : 1024 * u = 1 / 2 ^ 43 := by unfold u; norm_num
    rw [h6] at h5
    linarith
  -- the coordinates of the point
  have ea : orient a c p = -orient c a p := by unfold orient; ring
  have d1 := orient_diff (a := c) (b := a) (p := p) (q := q) (D := D) (τ := τ) (by rwa [abs_sub_comm]) (by rwa [abs_sub_comm]) h1 h2
  have d2 := orient_diff (a := a) (b := b) hb1 hb2 h1 h2
  have hsum : orient b c q / orient a b c + orient c a q / orient a b c + orient a b q / orient a b c = 1 := by
    rw [← add_div, ← add_div, div_eq_one_iff_eq hA]
    unfold orient; ring
  set ρ := 4 * τ * D / |orient a b c| with hρ
  have hρ0 : 0 ≤ ρ := by positivity
  have hρ4 : ρ ≤ 1 / 4 := by rw [hρ, div_le_iff₀ hA0]; linarith
  have dd : ∀ {x y : ℚ}, |x - y| ≤ 4 * τ * D → |x / orient a b c - y / orient a b c| ≤ ρ := by
    intro x y h
    rw [← sub_div, abs_div]
    exact div_le_div_of_nonneg_right h hA0.le
  have l1 := abs_le.1 (dd d1)
  have l2 := abs_le.1 (dd d2)
  set s1 := orient c a p / orient a b c with hs1
  set s2 := orient a b p / orient a b c with hs2
  have ab1 : (|orient a c p|) / (|orient a b c|) = |s1| := by rw [ea, abs_neg, hs1, abs_div]
  have ab2 : (|orient a b p|) / (|orient a b c|) = |s2| := by rw [hs2, abs_div]
  have hle : ∀ {x : ℚ}, (|x|) / (|orient a b c|) ≤ 3 / 2 → |x| ≤ 3 / 2 * |orient a b c| := fun h => (div_le_iff₀ hA0).1 h
  obtain ⟨w0, w1, w2, e1, e2, e3, e4, e5, e6⟩ := triangleWeights_fl (a := a) (b := b) (c := c) (p := p) (ha.mono hM') (hb.mono hM')
    (hc.mono hM') hp hD hb1 hb2 hc1 hc2
    (by
      have : |p.x - a.x| ≤ |p.x - q.x| + |q.x - a.x| := abs_sub_le _ _ _
      linarith)
    (by
      have : |p.y - a.y| ≤ |p.y - q.y| + |q.y - a.y| := abs_sub_le _ _ _
      linarith) hκ43
    (hle (by rw [ab1, abs_le]; constructor <;> linarith)) (hle (by rw [ab2, abs_le]; constructor <;> linarith))
  rw [ab1] at e2
  rw [ab2] at e3
  have f1 := weight_close (by linarith) hρ0 e2
  have f2 := weight_close (by linarith) hρ0 e3
  set κ' := D * D / |orient a b c| with hκ'
  have hκ'1 : 1 / 2 ≤ κ' := by rw [hκ', le_div_iff₀ hA0]; linarith
  have hκ'2 : κ' ≤ κ := by rw [hκ', div_le_iff₀ hA0]; exact hκ
  have hρD : ρ * D = 4 * τ * κ' := by rw [hρ, hκ']; ring
  obtain ⟨x1, x2⟩ := bary_eq (p := p) hA
  have ec : orient a p c = orient c a p := by unfold orient; ring
  rw [ec, ← hs1, ← hs2] at x1 x2
  have hfin : ∀ {av bv cv pv : ℚ}, |av| ≤ M → |bv - av| ≤ D → |cv - av| ≤ D → pv = av + s1 * (bv - av) + s2 * (cv - av) →
      |w0 * av + w1 * bv + w2 * cv - pv| ≤ 18 * κ * τ := by
    intro av bv cv pv g1 g2 g3 g4
    have e : w0 * av + w1 * bv + w2 * cv - pv = (w1 - s1) * (bv - av) + (w2 - s2) * (cv - av) + (w0 + w1 + w2 - 1) * av := by
      rw [g4]; ring
    rw [e]
    have t1 : |(w1 - s1) * (bv - av)| ≤ (64 * u * κ' + 2 * ρ) * D := by
      rw [abs_mul]; exact mul_le_mul f1 g2 (abs_nonneg _) (by positivity)
    have t2 : |(w2 - s2) * (cv - av)| ≤ (64 * u * κ' + 2 * ρ) * D := by
      rw [abs_mul]; exact mul_le_mul f2 g3 (abs_nonneg _) (by positivity)
    have t3 : |(w0 + w1 + w2 - 1) * av| ≤ 4 * u * M := by
      rw [abs_mul]; exact mul_le_mul e6 g1 (abs_nonneg _) (by positivity)
    have t4 : 4 * u * M ≤ 8 * (u * M * κ') := by
      have := mul_le_mul_of_nonneg_left hκ'1 (mul_nonneg hu.le hM0)
      linarith
    have t5 : (8 * u * M + 64 * u * D) * κ' ≤ τ * κ' := mul_le_mul_of_nonneg_right hτ (by linarith)
    have t6 : 0 ≤ u * M * κ' := mul_nonneg (mul_nonneg hu.le hM0) (by linarith)
    have t7 : 18 * κ' * τ ≤ 18 * κ * τ := mul_le_mul_of_nonneg_right (by linarith) hτ0.le
    have t8 : (64 * u * κ' + 2 * ρ) * D = 64 * u * D * κ' + 8 * τ * κ' := by
      have : (64 * u * κ' + 2 * ρ) * D = 64 * u * D * κ' + 2 * (ρ * D) := by ring
      rw [this, hρD]; ring
    rw [t8] at t1 t2
    refine (abs_add_le _ _).trans ((add_le_add (abs_add_le _ _) le_rfl).trans ?_)
    linarith
  refine ⟨w0, w1, w2, e1, e4, e5, e6, hfin ha.1 hb1 hc1 x1, hfin ha.2 hb2 hc2 x2, ?_⟩
  have k1 := (abs_le.1 f1).2
  have k2 := (abs_le.1 f2).2
  have k3 := (abs_le.1 e6).1
  have k4 : -(4 * u + 128 * u * κ' + 6 * ρ) ≤ w0 := by linarith
  have k5 := mul_le_mul_of_nonneg_right k4 hD0.le
  have k6 : (4 * u + 128 * u * κ' + 6 * ρ) * D = 4 * u * D + 128 * u * D * κ' + 24 * τ * κ' := by
    have : (4 * u + 128 * u * κ' + 6 * ρ) * D = 4 * u * D + 128 * u * D * κ' + 6 * (ρ * D) := by ring
    rw [this, hρD]; ring
  have k7 : 64 * u * D ≤ τ := by
    have := mul_nonneg hu.le hM0
    linarith
  have k8 := mul_le_mul_of_nonneg_right k7 (show 0 ≤ κ' by linarith)
  have k9 : τ * (1 / 2) ≤ τ * κ' := mul_le_mul_of_nonneg_left hκ'1 hτ0.le
  have k10 : 27 * κ' * τ ≤ 27 * κ * τ := mul_le_mul_of_nonneg_right (by linarith) hτ0.le
  rw [neg_mul, k6] at k5
  linarith

end Celltree.Fl
