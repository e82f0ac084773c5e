import Verif.Proofs.FloatWholeWeights
import Verif.Proofs.FloatWeights

/-!
# The weights of a triangle at integer coordinates in binary64
-/

set_option linter.unusedSectionVars false

namespace Celltree.Fl

/-- Between `1 - u` and `1` there are no other numbers. -/
theorem rep_below_one {q : ℚ} (h : IsRep q) (h1 : 1 - u ≤ q) (h2 : q ≤ 1) : q = 1 - u ∨ q = 1 := by
  obtain ⟨m, e, rfl, hm, -⟩ := h
  have hm' : |(m : ℚ)| < 2 ^ 53 := by exact_mod_cast hm
  have hle := (le_abs_self (m : ℚ)).trans_lt hm'
  rcases lt_or_ge e (-53) with he | he
  · exfalso
    have h3 : (2 : ℚ) ^ e ≤ 2 ^ (-54 : Int) := zpow_le_zpow_right₀ (by norm_num) (by omega)
    have h4 : (2 : ℚ) ^ (-54 : Int) = 1 / 2 ^ 54 := by norm_num
    have h5 : (0 : ℚ) < 2 ^ e := by positivity
    have h6 : (m : ℚ) * 2 ^ e ≤ 2 ^ 53 * (1 / 2 ^ 54) := by
      rw [← h4]
      exact mul_le_mul hle.le h3 h5.le (by norm_num)
    have : (2 : ℚ) ^ 53 * (1 / 2 ^ 54) = 1 / 2 := by norm_num
    have := u_le
    linarith
  · obtain ⟨k, hk⟩ := Int.eq_ofNat_of_zero_le (show 0 ≤ e + 53 by omega)
    have ek : e = (k : Int) + (-53) := by omega
    have e2 : (m : ℚ) * 2 ^ e = ((m * 2 ^ k : Int) : ℚ) * (1 / 2 ^ 53) := by
      rw [ek, zpow_add₀ (by norm_num), zpow_natCast]
      push_cast
      rw [show (2 : ℚ) ^ (-53 : Int) = 1 / 2 ^ 53 by norm_num]
      ring
    rw [e2] at h1 h2 ⊢
    generalize m * 2 ^ k = z at *
    have z1 : (2 : ℚ) ^ 53 - 1 ≤ z := by
      have := mul_le_mul_of_nonneg_right h1 (show (0 : ℚ) ≤ 2 ^ 53 by norm_num)
      unfold u at this
      linarith
    have z2 : (z : ℚ) ≤ 2 ^ 53 := by linarith
    have z1' : 2 ^ 53 - 1 ≤ z := by exact_mod_cast z1
    have z2' : z ≤ 2 ^ 53 := by exact_mod_cast z2
    have : z = 2 ^ 53 - 1 ∨ z = 2 ^ 53 := by omega
    rcases this with rfl | rfl
    · left; unfold u; norm_num
    · right; norm_num

theorem isRep_one_sub_u : IsRep (1 - u) := ⟨2 ^ 53 - 1, -53, by unfold u; norm_num, by norm_num, by norm_num⟩

theorem rq_one_add_u : rq (1 + u) = 1 := by decide +kernel

theorem isRep_frac {m : Int} {k : Nat} (hk : k ≤ 53) (h0 : 0 ≤ m) (h1 : m ≤ 2 ^ k) : IsRep ((m : ℚ) / 2 ^ k) := by
  rcases h1.lt_or_eq with h | h
  · refine ⟨m, -k, by rw [zpow_neg, zpow_natCast]; rfl, ?_, by omega⟩
    rw [abs_of_nonneg h0]
    exact lt_of_lt_of_le h (pow_le_pow_right₀ (by norm_num) hk)
  · have : (m : ℚ) / 2 ^ k = 1 := by rw [h]; push_cast; exact div_self (by positivity)
    rw [this]; exact isRep_one

/-- A quotient of two integers, computed as a product with the reciprocal. -/
theorem recip_quot {A X : ℚ} (hA : Whole 53 A) (hA1 : 1 ≤ A) (hX : Whole 53 X) (hX0 : 0 ≤ X) (hXA : X ≤ A) :
    0 ≤ rq (rq (1 / A) * X) ∧ rq (rq (1 / A) * X) ≤ 1 ∧ |rq (rq (1 / A) * X) - X / A| ≤ 3 * u * (X / A) ∧
      |rq (1 / A) * X| ≤ 2 ∧ (X = 0 → rq (rq (1 / A) * X) = 0) ∧
      (X = A → rq (rq (1 / A) * X) = 1 ∨ rq (rq (1 / A) * X) = 1 - u) ∧
      (∀ k : Nat, A = 2 ^ k → rq (rq (1 / A) * X) = X / A) := by
  have hu := u_pos
  have hu' := u_le
  have hA0 : 0 < A := by linarith
  have hAle := le_of_abs_le hA.abs_le
  have hinv : 1 / 2 ^ 53 ≤ 1 / A := one_div_le_one_div_of_le hA0 hAle
  obtain ⟨i1, i2⟩ := rq_rel' ((inv_le_inv_pow (by norm_num)).trans hinv)
  have hi0 : 0 ≤ rq (1 / A) := rq_nonneg (by positivity)
  have hp0 : 0 ≤ rq (1 / A) * X := mul_nonneg hi0 hX0
  have hd : X / A = 1 / A * X := by ring
  have hd0 : 0 ≤ X / A := div_nonneg hX0 hA0.le
  have hd1 : X / A ≤ 1 := (div_le_one hA0).2 hXA
  have p1 : (1 - u) * (X / A) ≤ rq (1 / A) * X := by
    rw [hd]; have := mul_le_mul_of_nonneg_right i1 hX0; linarith
  have p2 : rq (1 / A) * X ≤ (1 + u) * (X / A) := by
    rw [hd]; have := mul_le_mul_of_nonneg_right i2 hX0; linarith
  have hud : u * (X / A) ≤ u := by have := mul_le_mul_of_nonneg_left hd1 hu.le; linarith
  have hle1 : rq (rq (1 / A) * X) ≤ 1 := by
    have := rq_mono (show rq (1 / A) * X ≤ 1 + u by linarith)
    rwa [rq_one_add_u] at this
  refine ⟨rq_nonneg hp0, hle1, ?_, by rw [abs_of_nonneg hp0]; linarith, fun h => by rw [h, mul_zero, rq_zero], fun h => ?_, ?_⟩
  · rcases eq_or_ne X 0 with rfl | hne
    · rw [mul_zero, rq_zero, zero_div]; simp
    · have hX1 : 1 ≤ X := by have := whole_one_le hX hne; rwa [abs_of_nonneg hX0] at this
      have hdl : 1 / 2 ^ 53 ≤ X / A := hinv.trans (by rw [hd]; exact le_mul_of_one_le_right (by positivity) hX1)
      have hpl : 1 / 2 ^ 1000 ≤ rq (1 / A) * X := by
        have h54 : (1 : ℚ) / 2 ^ 1000 ≤ 1 / 2 ^ 54 := inv_le_inv_pow (by norm_num)
        refine h54.trans (le_trans ?_ p1)
        have := mul_le_mul (show (1 : ℚ) / 2 ≤ 1 - u by linarith) hdl (by norm_num) (by linarith)
        refine le_trans (by norm_num) this
      obtain ⟨r1, r2⟩ := rq_rel' hpl
      have hud0 : 0 ≤ u * (X / A) := mul_nonneg hu.le hd0
      have hsq : u * (u * (X / A)) ≤ 1 / 1000000 * (u * (X / A)) := mul_le_mul_of_nonneg_right hu' hud0
      have m1 := mul_le_mul_of_nonneg_left p1 (show 0 ≤ 1 - u by linarith)
      have m2 := mul_le_mul_of_nonneg_left p2 (show 0 ≤ 1 + u by linarith)
      have hsq0 : 0 ≤ u * (u * (X / A)) := mul_nonneg hu.le hud0
      rw [abs_le]
      constructor
      · have : (1 - u) * ((1 - u) * (X / A)) = X / A - 2 * (u * (X / A)) + u * (u * (X / A)) := by ring
        linarith
      · have : (1 + u) * ((1 + u) * (X / A)) = X / A + 2 * (u * (X / A)) + u * (u * (X / A)) := by ring
        linarith
  · have e1 : X / A = 1 := by rw [h]; exact div_self hA0.ne'
    rw [e1, mul_one] at p1
    have := le_rq isRep_one_sub_u p1
    exact (rep_below_one (rq_isRep _) this hle1).symm
  · intro k hk
    have hk' : k ≤ 53 := by
      rw [hk] at hAle
      exact (pow_le_pow_iff_right₀ (by norm_num : (1 : ℚ) < 2)).1 hAle
    have e0 : IsRep (1 / A) := ⟨1, -k, by rw [hk, zpow_neg, zpow_natCast]; simp, by norm_num, by omega⟩
    rw [rq_of_isRep e0, ← hd]
    obtain ⟨m, rfl, hm⟩ := hX
    rw [hk] at hXA ⊢
    exact rq_of_isRep (isRep_frac hk' (by exact_mod_cast hX0) (by exact_mod_cast hXA))

/-- What is claimed of the weights of a point in a triangle at integer coordinates. -/
structure TriangleWeights (a b c p : Pt ℚ) (w0 w1 w2 : ℚ) : Prop where
  range : -(4 / 2 ^ 53) ≤ w0 ∧ w0 ≤ 1 ∧ (0 ≤ w1 ∧ w1 ≤ 1) ∧ 0 ≤ w2 ∧ w2 ≤ 1
  sum : |w0 + w1 + w2 - 1| ≤ 2 / 2 ^ 53
  near0 : |w0 - orient b c p / orient a b c| ≤ 5 / 2 ^ 53
  near1 : |w1 - orient c a p / orient a b c| ≤ 3 / 2 ^ 53 * (orient c a p / orient a b c)
  near2 : |w2 - orient a b p / orient a b c| ≤ 3 / 2 ^ 53 * (orient a b p / orient a b c)
  mean : ∀ D, (|b.x - a.x| ≤ D ∧ |b.y - a.y| ≤ D) → (|c.x - a.x| ≤ D ∧ |c.y - a.y| ≤ D) →
    |w0 * a.x + w1 * b.x + w2 * c.x - p.x| ≤ (3 * D + 2 * |a.x|) / 2 ^ 53 ∧
    |w0 * a.y + w1 * b.y + w2 * c.y - p.y| ≤ (3 * D + 2 * |a.y|) / 2 ^ 53
  first : p = a → w0 = 1 ∧ w1 = 0 ∧ w2 = 0
  second : p = b → (w1 = 1 ∨ w1 = 1 - 1 / 2 ^ 53) ∧ w0 = 1 - w1 ∧ w2 = 0
  third : p = c → (w2 = 1 ∨ w2 = 1 - 1 / 2 ^ 53) ∧ w0 = 1 - w2 ∧ w1 = 0
  exact : ∀ k : Nat, |orient a b c| = 2 ^ k →
    w0 = orient b c p / orient a b c ∧ w1 = orient c a p / orient a b c ∧ w2 = orient a b p / orient a b c

theorem rq_rep_sub {v : ℚ} (h : v = 1 ∨ v = 1 - u) : rq (1 - v) = 1 - v := by
  rcases h with rfl | rfl
  · rw [sub_self, rq_zero]
  · rw [sub_sub_cancel]
    exact rq_of_isRep ⟨1, -53, by unfold u; norm_num, by norm_num, by norm_num⟩

theorem whole_triangle {a b c p : Pt ℚ} {σ : ℚ} (ha : WholePt a) (hb : WholePt b) (hc : WholePt c) (hp : WholePt p)
    (hσ : σ = 1 ∨ σ = -1) (hA : 0 < σ * orient a b c) (h1 : 0 ≤ σ * orient a b p) (h2 : 0 ≤ σ * orient b c p)
    (h3 : 0 ≤ σ * orient c a p) :
    ∃ w0 w1 w2, triangleWeights ⟨fp a, fp b, fp c⟩ (fp p) = .ok [fin w0, fin w1, fin w2] ∧ TriangleWeights a b c p w0 w1 w2 := by
  have hu := u_pos
  have hu' := u_le
  have hun : u = 1 / 2 ^ 53 := rfl
  obtain ⟨c1, n1⟩ := whole_orient ha hb hp
  obtain ⟨c2, n2⟩ := whole_orient ha hc hp
  obtain ⟨c3, n3⟩ := whole_orient ha hb hc
  have hσσ : σ * σ = 1 := by rcases hσ with rfl | rfl <;> norm_num
  have habs : ∀ {x : ℚ}, 0 ≤ σ * x → |x| = σ * x := by
    intro x hx
    rcases hσ with rfl | rfl
    · rw [one_mul] at hx ⊢; exact abs_of_nonneg hx
    · rw [abs_of_nonpos (by linarith)]; ring
  have hww : ∀ {x : ℚ}, Whole 53 x → Whole 53 (σ * x) := by
    intro x hx
    rcases hσ with rfl | rfl
    · rwa [one_mul]
    · have := whole_neg hx; rwa [neg_one_mul]
  have hdiv : ∀ x : ℚ, σ * x / (σ * orient a b c) = x / orient a b c := by
    intro x
    exact mul_div_mul_left _ _ (by rintro rfl; simp at hσσ)
  have eca : orient a c p = -orient c a p := by unfold orient; ring
  have a1 := habs h1
  have a2 : |orient a c p| = σ * orient c a p := by rw [eca, abs_neg]; exact habs h3
  have a3 := habs hA.le
  have hsum : σ * orient a b p + σ * orient b c p + σ * orient c a p = σ * orient a b c := by
    unfold orient; ring
  have hA1 : 1 ≤ σ * orient a b c := by
    have := whole_one_le n3 (by rintro e; rw [e] at hA; simp at hA)
    rwa [a3] at this
  have n2' : Whole 53 (σ * orient c a p) := by
    have := hww (whole_neg n2)
    rwa [eca, neg_neg] at this
  obtain ⟨g1, g2, g3, g4, g5, g6, g7⟩ := recip_quot (hww n3) hA1 (hww n1) h1 (by linarith)
  obtain ⟨f1, f2, f3, f4, f5, f6, f7⟩ := recip_quot (hww n3) hA1 n2' h3 (by linarith)
  rw [hdiv] at g3 f3
  have hinv : |1 / (σ * orient a b c)| ≤ 2 ^ 0 := by
    rw [abs_of_pos (by positivity), pow_zero]
    exact (div_le_one hA).2 hA1
  have hd := fdiv_fin (a := 1) (b := σ * orient a b c) (k := 0) hA.ne' (by norm_num) hinv
  have hm1 := mul_fin (k := 1) (by norm_num) (g4.trans (by norm_num))
  have hm2 := mul_fin (k := 1) (by norm_num) (f4.trans (by norm_num))
  have hA0 : orient a b c ≠ 0 := by rintro e; rw [e] at hA; simp at hA
  have lam1 : 0 ≤ orient a b p / orient a b c := by rw [← hdiv]; exact div_nonneg h1 hA.le
  have lam2 : 0 ≤ orient c a p / orient a b c := by rw [← hdiv]; exact div_nonneg h3 hA.le
  have lam0 : 0 ≤ orient b c p / orient a b c := by rw [← hdiv]; exact div_nonneg h2 hA.le
  have lams : orient b c p / orient a b c + orient c a p / orient a b c + orient a b p / orient a b c = 1 := by
    rw [← add_div, ← add_div, div_eq_one_iff_eq hA0]; unfold orient; ring
  obtain ⟨q1, q2⟩ := bary_eq (a := a) (b := b) (c := c) (p := p) hA0
  rw [show orient a p c = orient c a p by unfold orient; ring] at q1 q2
  rw [hdiv] at g7 f7
  have hz1 : p = a ∨ p = b → σ * orient a b p = 0 := by
    rintro (rfl | rfl) <;> unfold orient <;> ring
  have hz2 : p = a ∨ p = c → σ * orient c a p = 0 := by
    rintro (rfl | rfl) <;> unfold orient <;> ring
  have ho2 : p = b → σ * orient c a p = σ * orient a b c := by
    rintro rfl; unfold orient; ring
  have ho1 : p = c → σ * orient a b p = σ * orient a b c := by
    rintro rfl; rfl
  generalize hw : rq (rq (1 / (σ * orient a b c)) * (σ * orient a b p)) = w at *
  generalize hv : rq (rq (1 / (σ * orient a b c)) * (σ * orient c a p)) = v at *
  generalize el2 : orient a b p / orient a b c = lw at *
  generalize el1 : orient c a p / orient a b c = lv at *
  generalize el0 : orient b c p / orient a b c = l0 at *
  have g3' := abs_le.1 g3
  have f3' := abs_le.1 f3
  have ulw : 0 ≤ u * lw := mul_nonneg hu.le lam1
  have ulv : 0 ≤ u * lv := mul_nonneg hu.le lam2
  have ul0 : 0 ≤ u * l0 := mul_nonneg hu.le lam0
  have usum : u * l0 + u * lv + u * lw = u := by
    rw [← mul_add, ← mul_add, lams, mul_one]
  have b1 : |1 - v| ≤ 1 := by rw [abs_le]; constructor <;> linarith
  have s1 := sub_fin (a := 1) (b := v) (k := 0) (by norm_num) (by rw [pow_zero]; exact b1)
  have t1 := abs_le.1 (rq_abs b1 ((inv_le_inv_pow (j := 0) (by norm_num)).trans (by norm_num)))
  have t0 : 0 ≤ rq (1 - v) := rq_nonneg (by linarith)
  have t9 : rq (1 - v) ≤ 1 := rq_le isRep_one (by linarith)
  have b2 : |rq (1 - v) - w| ≤ 1 := by rw [abs_le]; constructor <;> linarith
  have s2 := sub_fin (a := rq (1 - v)) (b := w) (k := 0) (by norm_num) (by rw [pow_zero]; exact b2)
  have t2 := abs_le.1 (rq_abs b2 ((inv_le_inv_pow (j := 0) (by norm_num)).trans (by norm_num)))
  have hlow : -(4 * u) ≤ rq (rq (1 - v) - w) := by
    refine le_rq ⟨-1, -51, by unfold u; norm_num, by norm_num, by norm_num⟩ ?_
    linarith
  have hsum2 : |rq (rq (1 - v) - w) + v + w - 1| ≤ 2 * u := by
    rw [abs_le]; constructor <;> linarith
  have h4u : 4 / 2 ^ 53 = 4 * u := by rw [hun]; ring
  have h2u : 2 / 2 ^ 53 = 2 * u := by rw [hun]; ring
  have h3u : 3 / 2 ^ 53 = 3 * u := by rw [hun]; ring
  have h5u : 5 / 2 ^ 53 = 5 * u := by rw [hun]; ring
  refine ⟨rq (rq (1 - v) - w), v, w, ?_, ?_⟩
  · unfold triangleWeights
    simp only [c1, c2, c3, fabs_fin, one_def, a1, a2, a3, hd, ok_bind, hm1, hm2, s1, s2]
  · refine ⟨⟨by rw [h4u]; exact hlow, rq_le isRep_one (by linarith), ⟨f1, f2⟩, g1, g2⟩, by rw [h2u]; exact hsum2, ?_, ?_, ?_, ?_, ?_, ?_,
      ?_, ?_⟩
    · rw [h5u, el0, abs_le]; constructor <;> linarith
    · rw [h3u, el1]; exact f3
    · rw [h3u, el2]; exact g3
    · intro D ⟨d1, d2⟩ ⟨d3, d4⟩
      have hD0 : 0 ≤ D := (abs_nonneg _).trans d1
      have key : ∀ {x y z q : ℚ}, q = x + lv * (y - x) + lw * (z - x) → |y - x| ≤ D → |z - x| ≤ D →
          |rq (rq (1 - v) - w) * x + v * y + w * z - q| ≤ (3 * D + 2 * |x|) / 2 ^ 53 := by
        intro x y z q hq k1 k2
        have e1 : rq (rq (1 - v) - w) * x + v * y + w * z - q = (rq (rq (1 - v) - w) + v + w - 1) * x +
            ((v - lv) * (y - x) + (w - lw) * (z - x)) := by rw [hq]; ring
        rw [e1]
        have m1 := mul_le_mul hsum2 (le_refl |x|) (abs_nonneg _) (by linarith)
        have m2 := mul_le_mul f3 k1 (abs_nonneg _) (by linarith)
        have m3 := mul_le_mul g3 k2 (abs_nonneg _) (by linarith)
        rw [← abs_mul] at m1 m2 m3
        have m4 := abs_add_le ((rq (rq (1 - v) - w) + v + w - 1) * x) ((v - lv) * (y - x) + (w - lw) * (z - x))
        have m5 := abs_add_le ((v - lv) * (y - x)) ((w - lw) * (z - x))
        have m6 : (u * lv + u * lw) * D ≤ u * D := mul_le_mul_of_nonneg_right (by linarith) hD0
        have e2 : (3 * D + 2 * |x|) / 2 ^ 53 = 3 * (u * D) + 2 * u * |x| := by rw [hun]; ring
        rw [e2]
        linarith
      exact ⟨key q1 d1 d3, key q2 d2 d4⟩
    · intro e
      have ev := f5 (hz2 (Or.inl e))
      have ew := g5 (hz1 (Or.inl e))
      rw [ev, ew, sub_zero, sub_zero, rq_one, rq_one]
      exact ⟨rfl, rfl, rfl⟩
    · intro e
      have ew := g5 (hz1 (Or.inr e))
      have ev := f6 (ho2 e)
      rw [ew, sub_zero, rq_of_isRep (rq_isRep _), rq_rep_sub ev]
      exact ⟨ev, rfl, rfl⟩
    · intro e
      have ev := f5 (hz2 (Or.inr e))
      have ew := g6 (ho1 e)
      rw [ev, sub_zero, rq_one, rq_rep_sub ew]
      exact ⟨ew, rfl, rfl⟩
    · intro k hk
      rw [a3] at hk
      have hk' : k ≤ 53 := by
        have := le_of_abs_le (hww n3).abs_le
        rw [hk] at this
        exact (pow_le_pow_iff_right₀ (by norm_num : (1 : ℚ) < 2)).1 this
      have ev := f7 k hk
      have ew := g7 k hk
      rw [el0, el1, el2]
      refine ⟨?_, ev, ew⟩
      obtain ⟨m1, k1, -⟩ := hww n1
      obtain ⟨m2, k2, -⟩ := n2'
      have z0 : (0 : ℚ) < 2 ^ k := by positivity
      have e1 : lw = (m1 : ℚ) / 2 ^ k := by rw [← el2, ← hdiv, k1, hk]
      have e2 : lv = (m2 : ℚ) / 2 ^ k := by rw [← el1, ← hdiv, k2, hk]
      have e3 : 1 - lv = ((2 ^ k - m2 : Int) : ℚ) / 2 ^ k := by rw [e2]; push_cast; field_simp
      have e4 : 1 - lv - lw = ((2 ^ k - m2 - m1 : Int) : ℚ) / 2 ^ k := by rw [e3, e1]; push_cast; field_simp
      have i1 : 0 ≤ m1 := by rw [k1] at h1; exact_mod_cast h1
      have i2 : 0 ≤ m2 := by rw [k2] at h3; exact_mod_cast h3
      have i3 : m1 + m2 ≤ 2 ^ k := by
        have : (m1 : ℚ) + m2 ≤ 2 ^ k := by rw [← k1, ← k2, ← hk]; linarith
        exact_mod_cast this
      rw [ev, ew, e3, rq_of_isRep (isRep_frac hk' (by omega) (by omega)), ← e3, e4,
        rq_of_isRep (isRep_frac hk' (by omega) (by omega)), ← e4]
      linarith

end Celltree.Fl
