import Verif.Proofs.FloatScale
import Verif.Proofs.FloatSqrt

/-!
# The rounded root of a number that is multiplied by a power of four
-/

namespace Celltree.Fl

theorem roundDiv_of_compare {n d n' d' : Nat} (hd : 0 < d) (hd' : 0 < d') (h1 : ∀ j, j * d ≤ 2 * n ↔ j * d' ≤ 2 * n')
    (h2 : ∀ j, 2 * n ≤ j * d ↔ 2 * n' ≤ j * d') : roundDiv n d = roundDiv n' d' := by
  have e := Nat.div_add_mod n d
  have lt := Nat.mod_lt n hd
  unfold roundDiv
  simp only
  generalize n / d = q at *
  generalize n % d = r at *
  have hq : n' / d' = q := by
    apply Nat.div_eq_of_lt_le
    · have := (h1 (2 * (q))).1 (by nlinarith)
      nlinarith
    · have : ¬ 2 * (q + 1) * d' ≤ 2 * n' := fun h => by
        have := (h1 _).2 h
        nlinarith
      nlinarith
  have e' := Nat.div_add_mod n' d'
  rw [hq] at e'
  have a1 : 2 * (r) < d ↔ 2 * (n' % d') < d' := by
    have := h1 (2 * (q) + 1)
    constructor
    · intro h
      by_contra hc
      have := this.2 (by nlinarith)
      nlinarith
    · intro h
      by_contra hc
      have := this.1 (by nlinarith)
      nlinarith
  have a2 : d < 2 * (r) ↔ d' < 2 * (n' % d') := by
    have := h2 (2 * (q) + 1)
    constructor
    · intro h
      by_contra hc
      have := this.2 (by nlinarith)
      nlinarith
    · intro h
      by_contra hc
      have := this.1 (by nlinarith)
      nlinarith
  simp only [hq, a1, a2]

/-- Two numbers that compare in the same way with everything on a fine grid are rounded to the same float. -/
theorem rq_congr {e : Nat} {t t' : ℚ} (he : e ≤ 1000) (hlow : (2 : ℚ) ^ (-(e : Int) + 60) ≤ t)
    (h : ∀ y, 0 ≤ y → Grid e y → (y ≤ t ↔ y ≤ t') ∧ (t ≤ y ↔ t' ≤ y)) : rq t = rq t' := by
  have ht : 0 < t := (two_zpow_pos _).trans_le hlow
  obtain ⟨x1, x2, -⟩ := ex_spec ht.ne'
  obtain ⟨n1, n2⟩ := ex_normal (q := t) (by
    rw [abs_of_pos ht]
    exact (two_zpow_le (by omega)).trans hlow)
  rw [abs_of_pos ht] at n1 n2
  have hE : -(e : Int) + 8 ≤ ex t := by
    have := (zpow_lt_zpow_iff_right₀ (by norm_num : (1 : ℚ) < 2)).1 (hlow.trans_lt n2)
    omega
  have g1 : (2 : ℚ) ^ (ex t + 52) ≤ t' := (h _ (two_zpow_pos _).le (grid_zpow (by omega))).1.1 n1
  have g2 : t' < 2 ^ (ex t + 53) := by
    by_contra hc
    exact absurd ((h _ (two_zpow_pos _).le (grid_zpow (by omega))).1.2 (not_lt.1 hc)) (not_le.2 n2)
  have ht' : 0 < t' := (two_zpow_pos _).trans_le g1
  have hex : ex t' = ex t := ex_unique (by rwa [abs_of_pos ht']) (by rwa [abs_of_pos ht']) x1
  have hs : sig t = sig t' := by
    unfold sig
    rw [hex]
    have s1 := scale_eq t.num.natAbs (-ex t) t.den_pos
    have s2 := scale_eq t'.num.natAbs (-ex t) t'.den_pos
    have p1 := scale_pos (n := t.num.natAbs) (-ex t) t.den_pos
    have p2 := scale_pos (n := t'.num.natAbs) (-ex t) t'.den_pos
    rw [← abs_eq_div, abs_of_pos ht] at s1
    rw [← abs_eq_div, abs_of_pos ht'] at s2
    generalize (scale t.num.natAbs t.den (-ex t)).1 = n at *
    generalize (scale t.num.natAbs t.den (-ex t)).2 = d at *
    generalize (scale t'.num.natAbs t'.den (-ex t)).1 = n' at *
    generalize (scale t'.num.natAbs t'.den (-ex t)).2 = d' at *
    have q1 : (0 : ℚ) < d := by exact_mod_cast p1
    have q2 : (0 : ℚ) < d' := by exact_mod_cast p2
    have hz := two_zpow_pos (ex t)
    -- multiples of half the last digit are on the grid
    have grid : ∀ j : Nat, Grid e ((j : ℚ) / 2 * 2 ^ ex t) := by
      intro j
      have := (grid_int j).mul (grid_zpow (e := e) (x := ex t - 1) (by omega))
      rw [zero_add, zpow_sub₀ (by norm_num), zpow_one] at this
      rw [show (j : ℚ) / 2 * 2 ^ ex t = ((j : Int) : ℚ) * (2 ^ ex t / 2) by push_cast; ring]
      exact this
    have c1 : ∀ {m c : Nat} {x : ℚ}, (0 : ℚ) < c → (m : ℚ) / c = x * 2 ^ (-ex t) → ∀ j : Nat,
        (j * c ≤ 2 * m ↔ (j : ℚ) / 2 * 2 ^ ex t ≤ x) ∧ (2 * m ≤ j * c ↔ x ≤ (j : ℚ) / 2 * 2 ^ ex t) := by
      intro m c x hc hm j
      have hx : x = (m : ℚ) / c * 2 ^ ex t := by rw [hm, mul_zpow_neg]
      rw [hx, mul_le_mul_iff_left₀ hz, mul_le_mul_iff_left₀ hz, div_le_div_iff₀ (by norm_num) hc, div_le_div_iff₀ hc (by norm_num)]
      constructor
      · constructor
        · intro h
          have : (j : ℚ) * c ≤ 2 * m := by exact_mod_cast h
          linarith
        · intro h
          have : (j : ℚ) * c ≤ 2 * m := by linarith
          exact_mod_cast this
      · constructor
        · intro h
          have : 2 * (m : ℚ) ≤ j * c := by exact_mod_cast h
          linarith
        · intro h
          have : 2 * (m : ℚ) ≤ j * c := by linarith
          exact_mod_cast this
    apply roundDiv_of_compare p1 p2
    · intro j
      rw [(c1 q1 s1 j).1, (c1 q2 s2 j).1]
      exact (h _ (by positivity) (grid j)).1
    · intro j
      rw [(c1 q1 s1 j).2, (c1 q2 s2 j).2]
      exact (h _ (by positivity) (grid j)).2
  unfold rq
  rw [if_neg ht.ne', if_neg ht'.ne', if_pos ht, if_pos ht', hs, hex]

/-- The number that is rounded compares with the grid like the root. -/
theorem sqrt_compare {P x t : ℚ} {s : Nat} (hP : 0 < P) (b1 : (s : ℚ) * s ≤ x * (P * P)) (b2 : x * (P * P) < ((s : ℚ) + 1) * (s + 1))
    (ht : (s : ℚ) * s = x * (P * P) ∧ t = s / P ∨ (s : ℚ) * s ≠ x * (P * P) ∧ t = (2 * s + 1) / (2 * P)) {y : ℚ} {j : Nat} (hy : y * P = j) :
    (y ≤ t ↔ y * y ≤ x) ∧ (t ≤ y ↔ x ≤ y * y) := by
  have hPP : 0 < P * P := mul_pos hP hP
  have e1 : y * y ≤ x ↔ (j : ℚ) * j ≤ x * (P * P) := by
    rw [← hy, show y * P * (y * P) = y * y * (P * P) by ring, mul_le_mul_iff_left₀ hPP]
  have e2 : x ≤ y * y ↔ x * (P * P) ≤ (j : ℚ) * j := by
    rw [← hy, show y * P * (y * P) = y * y * (P * P) by ring, mul_le_mul_iff_left₀ hPP]
  have hyj : y = j / P := by rw [← hy, mul_div_assoc, div_self hP.ne', mul_one]
  have sq : ∀ a b : Nat, (a : ℚ) * a ≤ (b : ℚ) * b ↔ a ≤ b := by
    intro a b
    rw [← Nat.mul_self_le_mul_self_iff (m := a)]
    exact_mod_cast Iff.rfl
  rw [e1, e2, hyj]
  rcases ht with ⟨h1, rfl⟩ | ⟨h1, rfl⟩
  · rw [← h1, sq, sq, div_le_div_iff_of_pos_right hP, div_le_div_iff_of_pos_right hP, Nat.cast_le, Nat.cast_le]
    exact ⟨Iff.rfl, Iff.rfl⟩
  · have b1' := lt_of_le_of_ne b1 h1
    have m1 : (j : ℚ) / P ≤ (2 * s + 1) / (2 * P) ↔ j ≤ s := by
      rw [div_le_div_iff₀ hP (by linarith), show (j : ℚ) * (2 * P) = 2 * j * P by ring, mul_le_mul_iff_left₀ hP]
      constructor
      · intro h
        have : 2 * j ≤ 2 * s + 1 := by exact_mod_cast h
        omega
      · intro h
        have : (j : ℚ) ≤ s := by exact_mod_cast h
        linarith
    have m2 : (2 * (s : ℚ) + 1) / (2 * P) ≤ j / P ↔ s + 1 ≤ j := by
      rw [div_le_div_iff₀ (by linarith) hP, show (j : ℚ) * (2 * P) = 2 * j * P by ring, mul_le_mul_iff_left₀ hP]
      constructor
      · intro h
        have : 2 * s + 1 ≤ 2 * j := by exact_mod_cast h
        omega
      · intro h
        have : (s : ℚ) + 1 ≤ j := by exact_mod_cast h
        linarith
    rw [m1, m2]
    constructor
    · constructor
      · intro h
        exact ((sq _ _).2 h).trans b1'.le
      · intro h
        have : (j : ℚ) * j < ((s + 1 : Nat) : ℚ) * (s + 1 : Nat) := by push_cast; exact h.trans_lt b2
        have := lt_iff_lt_of_le_iff_le (sq (s + 1) j) |>.1 this
        omega
    · constructor
      · intro h
        have := (sq (s + 1) j).2 h
        push_cast at this
        exact b2.le.trans this
      · intro h
        have : (s : ℚ) * s < (j : ℚ) * j := b1'.trans_le h
        have := lt_iff_lt_of_le_iff_le (sq j s) |>.1 this
        omega

theorem sqrt_grid {x : ℚ} (hx : 0 ≤ x) : ∃ t, env.sqrt (fin x) = rnd t ∧
    ∀ y, 0 ≤ y → Grid 600 y → (y ≤ t ↔ y * y ≤ x) ∧ (t ≤ y ↔ x ≤ y * y) := by
  have hP : (0 : ℚ) < 2 ^ 600 := by positivity
  have e : x * 2 ^ 1200 = x * (2 ^ 600 * 2 ^ 600) := by rw [← pow_add]
  have hX : 0 ≤ x * 2 ^ 1200 := mul_nonneg hx (by positivity)
  obtain ⟨b1, b2⟩ := nat_sqrt_bounds hX
  set s := Nat.sqrt (x * 2 ^ 1200).floor.toNat with hs
  have hdef : env.sqrt (fin x) = rnd (if (s * s : ℚ) = x * 2 ^ 1200 then mkRat s (2 ^ 600) else mkRat (2 * s + 1) (2 ^ 601)) := by
    change (if x < 0 then nan else _) = _
    rw [if_neg (not_lt.2 hx)]
  have ht : (s : ℚ) * s = x * 2 ^ 1200 ∧
      (if (s * s : ℚ) = x * 2 ^ 1200 then mkRat s (2 ^ 600) else mkRat (2 * s + 1) (2 ^ 601)) = (s : ℚ) / 2 ^ 600 ∨
      (s : ℚ) * s ≠ x * 2 ^ 1200 ∧
      (if (s * s : ℚ) = x * 2 ^ 1200 then mkRat s (2 ^ 600) else mkRat (2 * s + 1) (2 ^ 601)) = (2 * (s : ℚ) + 1) / (2 * 2 ^ 600) := by
    split
    · next h =>
      left
      rw [Rat.mkRat_eq_div, Nat.cast_pow]
      exact ⟨h, rfl⟩
    · next h =>
      right
      rw [Rat.mkRat_eq_div, Nat.cast_pow, ← pow_succ']
      push_cast
      exact ⟨h, rfl⟩
  refine ⟨_, hdef, fun y hy hg => ?_⟩
  obtain ⟨m, hm⟩ := hg
  have hm0 : 0 ≤ m := by
    have : (0 : ℚ) ≤ m := hm ▸ mul_nonneg hy hP.le
    exact_mod_cast this
  obtain ⟨j, rfl⟩ := Int.eq_ofNat_of_zero_le hm0
  rw [e] at b1 b2 ht
  generalize (2 : ℚ) ^ 600 = P at *
  exact sqrt_compare hP b1 b2 (by rw [e]; exact ht) (by rw [hm]; rfl)

/-- The root of a number that is multiplied by a power of four. -/
theorem Sc.sqrt {k : Int} {e E : Nat} {x x' : Fl} (hx : Sc (k + k) (e + e) (E + E) x x') (h0 : 0 ≤ x) (hk : k.natAbs ≤ 100) (he : e ≤ 300)
    (hE : E ≤ 300) : Sc k (e + 53) E (env.sqrt x) (env.sqrt x') := by
  obtain ⟨q, rfl, rfl, g, b⟩ := hx
  rw [zero_def, le_fin] at h0
  have h2k := two_zpow_pos k
  have hq' : 0 ≤ 2 ^ (k + k) * q := mul_nonneg (two_zpow_pos _).le h0
  obtain ⟨t, e1, c1⟩ := sqrt_grid h0
  obtain ⟨t', e2, c2⟩ := sqrt_grid hq'
  rw [e1, e2]
  rcases h0.eq_or_lt with rfl | hpos
  · have z := c1 0 le_rfl ⟨0, by simp⟩
    have z' := c2 0 le_rfl ⟨0, by simp⟩
    have t0 : t = 0 := le_antisymm (z.2.2 (by simp)) (z.1.2 (by simp))
    have t0' : t' = 0 := le_antisymm (z'.2.2 (by simp)) (z'.1.2 (by simp))
    rw [t0, t0', show Fl.rnd 0 = (0 : Fl) from rfl]
    exact sc_zero _ _ _
  have qlow := g.le_abs hpos.ne'
  rw [abs_of_pos hpos] at qlow b
  have tlow : 1 / 2 ^ e ≤ t := by
    refine (c1 _ (by positivity) ⟨2 ^ (600 - e), ?_⟩).1.2 ?_
    · push_cast
      rw [div_mul_eq_mul_div, one_mul, div_eq_iff (by positivity), ← pow_add]
      congr 1
      omega
    · rw [div_mul_div_comm, one_mul, ← pow_add]
      exact qlow
  have thigh : t ≤ 2 ^ E := by
    refine (c1 _ (by positivity) ⟨2 ^ (E + 600), ?_⟩).2.2 ?_
    · push_cast
      rw [← pow_add]
    · rw [← pow_add]
      exact b
  have tpos : 0 < t := lt_of_lt_of_le (by positivity) tlow
  have hEq : rq t' = rq (2 ^ k * t) := by
    symm
    refine rq_congr (e := 500) (by norm_num) ?_ fun y hy hg => ?_
    · have := le_zpow_mul (k := k) (q := t) (e := e) (by rwa [abs_of_pos tpos])
      rw [abs_of_pos (mul_pos h2k tpos)] at this
      exact le_trans (two_zpow_le (by omega)) this
    · have hg' := c2 y hy (hg.mono (by norm_num))
      have hy2 : 2 ^ (-k) * y * 2 ^ k = y := by
        rw [mul_comm, ← mul_assoc, ← zpow_add₀ (by norm_num), add_neg_cancel, zpow_zero, one_mul]
      have hg2 := c1 (2 ^ (-k) * y) (mul_nonneg (two_zpow_pos _).le hy) (by
        have := (grid_zpow (e := 100) (x := -k) (by omega)).mul hg
        exact this)
      have s1 : ∀ z w : ℚ, z * 2 ^ k ≤ 2 ^ k * w ↔ z ≤ w := fun z w => by
        rw [mul_comm, mul_le_mul_iff_right₀ h2k]
      have s2 : ∀ z w : ℚ, 2 ^ k * w ≤ z * 2 ^ k ↔ w ≤ z := fun z w => by
        rw [mul_comm z, mul_le_mul_iff_right₀ h2k]
      have sqy : y * y = 2 ^ (k + k) * (2 ^ (-k) * y * (2 ^ (-k) * y)) := by
        conv_lhs => rw [← hy2]
        rw [zpow_add₀ (by norm_num)]
        ring
      have h2kk := two_zpow_pos (k + k)
      constructor
      · conv_lhs => rw [← hy2]
        rw [s1, hg2.1, hg'.1, sqy, mul_le_mul_iff_right₀ h2kk]
      · conv_lhs => rw [← hy2]
        rw [s2, hg2.2, hg'.2, sqy, mul_le_mul_iff_right₀ h2kk]
  have hr : Fl.rnd t' = Fl.rnd (2 ^ k * t) := by
    have tp' : 0 < t' := by
      by_contra hc
      have := (c2 0 le_rfl ⟨0, by simp⟩).2.1 (not_lt.1 hc)
      rw [mul_zero] at this
      exact absurd (mul_pos (two_zpow_pos _) hpos) (not_lt.2 this)
    rw [rnd_eq, rnd_eq, hEq]
    simp only [tp', mul_pos h2k tpos, if_true]
  rw [hr]
  refine Sc.rnd (e := e) (Or.inr (by rwa [abs_of_pos tpos])) (grid_rq_of_le (by rwa [abs_of_pos tpos])) (by rwa [abs_of_pos tpos])
    (by omega) (by omega)

end Celltree.Fl
