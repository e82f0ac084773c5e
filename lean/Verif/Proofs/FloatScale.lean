import Verif.Proofs.FloatArith

/-!
# Powers of two in binary64

Multiplication by a power of two commutes with rounding, as long as there is no overflow and no underflow.
-/

namespace Celltree.Fl

theorem roundDiv_mul {n d c : Nat} (hc : 0 < c) : roundDiv (c * n) (c * d) = roundDiv n d := by
  unfold roundDiv
  simp only
  rw [Nat.mul_div_mul_left _ _ hc, Nat.mul_mod_mul_left]
  have e1 : 2 * (c * (n % d)) < c * d ↔ 2 * (n % d) < d := by
    rw [show 2 * (c * (n % d)) = c * (2 * (n % d)) by ring]
    exact Nat.mul_lt_mul_left hc
  have e2 : c * d < 2 * (c * (n % d)) ↔ d < 2 * (n % d) := by
    rw [show 2 * (c * (n % d)) = c * (2 * (n % d)) by ring]
    exact Nat.mul_lt_mul_left hc
  simp only [e1, e2]

theorem roundDiv_congr {n d n' d' : Nat} (hd : 0 < d) (hd' : 0 < d') (h : (n : ℚ) / d = n' / d') : roundDiv n d = roundDiv n' d' := by
  rw [div_eq_div_iff (by exact_mod_cast hd.ne') (by exact_mod_cast hd'.ne')] at h
  have h' : n * d' = n' * d := by exact_mod_cast h
  rw [← roundDiv_mul (n := n) hd', ← roundDiv_mul (n := n') hd, mul_comm d' n, h', mul_comm n' d, mul_comm d' d]

theorem ex_unique {q : ℚ} {e : Int} (h1 : (2 : ℚ) ^ (e + 52) ≤ |q|) (h2 : |q| < 2 ^ (e + 53)) (he : -1074 ≤ e) : ex q = e := by
  have hq : q ≠ 0 := by
    rintro rfl
    rw [abs_zero] at h1
    exact absurd h1 (not_le.2 (two_zpow_pos _))
  obtain ⟨x1, x2, x3⟩ := ex_spec hq
  have l1 : e + 52 < ex q + 53 := (zpow_lt_zpow_iff_right₀ (by norm_num : (1 : ℚ) < 2)).1 (h1.trans_lt x2)
  by_contra hne
  have hlt : -1074 < ex q := by omega
  have l2 : ex q + 52 < e + 53 := (zpow_lt_zpow_iff_right₀ (by norm_num : (1 : ℚ) < 2)).1 ((x3 hlt).trans_lt h2)
  omega

theorem ex_normal {q : ℚ} (h : (2 : ℚ) ^ (-1022 : Int) ≤ |q|) : (2 : ℚ) ^ (ex q + 52) ≤ |q| ∧ |q| < 2 ^ (ex q + 53) := by
  have hq : q ≠ 0 := by
    rintro rfl
    rw [abs_zero] at h
    exact absurd h (not_le.2 (two_zpow_pos _))
  obtain ⟨x1, x2, x3⟩ := ex_spec hq
  refine ⟨?_, x2⟩
  rcases x1.eq_or_lt with h' | h'
  · rw [← h']; exact h
  · exact x3 h'

/-- Multiplication by a power of two commutes with rounding. -/
theorem rq_scale {q : ℚ} {k : Int} (h1 : (2 : ℚ) ^ (-1022 : Int) ≤ |q|) (h2 : (2 : ℚ) ^ (-1022 : Int) ≤ |2 ^ k * q|) :
    rq (2 ^ k * q) = 2 ^ k * rq q := by
  have hk := two_zpow_pos k
  have habs : |2 ^ k * q| = 2 ^ k * |q| := by rw [abs_mul, abs_of_pos hk]
  obtain ⟨a1, a2⟩ := ex_normal h1
  have he : ex (2 ^ k * q) = ex q + k := by
    apply ex_unique
    · rw [habs, show ex q + k + 52 = k + (ex q + 52) by ring, zpow_add₀ (by norm_num)]
      exact mul_le_mul_of_nonneg_left a1 hk.le
    · rw [habs, show ex q + k + 53 = k + (ex q + 53) by ring, zpow_add₀ (by norm_num)]
      exact mul_lt_mul_of_pos_left a2 hk
    · have : (2 : ℚ) ^ (-1022 : Int) < 2 ^ (k + (ex q + 53)) := by
        refine h2.trans_lt ?_
        rw [habs, zpow_add₀ (by norm_num)]
        exact mul_lt_mul_of_pos_left a2 hk
      have := (zpow_lt_zpow_iff_right₀ (by norm_num : (1 : ℚ) < 2)).1 this
      omega
  have hs : sig (2 ^ k * q) = sig q := by
    unfold sig
    refine roundDiv_congr (scale_pos _ (Rat.den_pos _)) (scale_pos _ (Rat.den_pos _)) ?_
    rw [scale_eq _ _ (Rat.den_pos _), scale_eq _ _ (Rat.den_pos _), ← abs_eq_div, ← abs_eq_div, he, habs,
      show 2 ^ k * |q| * 2 ^ (-(ex q + k)) = |q| * (2 ^ k * 2 ^ (-(ex q + k))) by ring, ← zpow_add₀ (by norm_num)]
    congr 2
    ring
  unfold rq
  rw [hs, he]
  have e0 : 2 ^ k * q = 0 ↔ q = 0 := by rw [mul_eq_zero]; simp [hk.ne']
  have ep : 0 < 2 ^ k * q ↔ 0 < q := mul_pos_iff_of_pos_left hk
  simp only [e0, ep]
  rw [zpow_add₀ (by norm_num)]
  split
  · rw [mul_zero]
  · split <;> ring

/-! ## Multiples of a power of two -/

/-- A multiple of `1 / 2 ^ e`. -/
def Grid (e : Nat) (q : ℚ) : Prop := ∃ m : Int, q * 2 ^ e = m

theorem Grid.mono {e e' : Nat} {q : ℚ} (h : Grid e q) (he : e ≤ e') : Grid e' q := by
  obtain ⟨m, hm⟩ := h
  obtain ⟨j, rfl⟩ := Nat.exists_eq_add_of_le he
  refine ⟨m * 2 ^ j, ?_⟩
  rw [pow_add, ← mul_assoc, hm]
  push_cast
  rfl

theorem Grid.add {e : Nat} {p q : ℚ} (hp : Grid e p) (hq : Grid e q) : Grid e (p + q) := by
  obtain ⟨m, hm⟩ := hp
  obtain ⟨n, hn⟩ := hq
  exact ⟨m + n, by rw [add_mul, hm, hn]; push_cast; rfl⟩

theorem Grid.neg {e : Nat} {q : ℚ} (hq : Grid e q) : Grid e (-q) := by
  obtain ⟨m, hm⟩ := hq
  exact ⟨-m, by rw [neg_mul, hm]; push_cast; rfl⟩

theorem Grid.sub {e : Nat} {p q : ℚ} (hp : Grid e p) (hq : Grid e q) : Grid e (p - q) := by
  rw [sub_eq_add_neg]; exact hp.add hq.neg

theorem Grid.mul {e f : Nat} {p q : ℚ} (hp : Grid e p) (hq : Grid f q) : Grid (e + f) (p * q) := by
  obtain ⟨m, hm⟩ := hp
  obtain ⟨n, hn⟩ := hq
  refine ⟨m * n, ?_⟩
  rw [pow_add, show p * q * (2 ^ e * 2 ^ f) = (p * 2 ^ e) * (q * 2 ^ f) by ring, hm, hn]
  push_cast
  rfl

theorem Grid.le_abs {e : Nat} {q : ℚ} (h : Grid e q) (hq : q ≠ 0) : 1 / 2 ^ e ≤ |q| := by
  obtain ⟨m, hm⟩ := h
  have hp : (0 : ℚ) < 2 ^ e := by positivity
  have hm0 : m ≠ 0 := by
    rintro rfl
    rw [Int.cast_zero, mul_eq_zero] at hm
    exact hm.elim hq hp.ne'
  rw [div_le_iff₀ hp, show |q| * 2 ^ e = |q * 2 ^ e| by rw [abs_mul, abs_of_pos hp], hm]
  have : 1 ≤ |m| := Int.one_le_abs hm0
  exact_mod_cast this

theorem grid_zpow {e : Nat} {x : Int} (h : -(e : Int) ≤ x) : Grid e ((2 : ℚ) ^ x) := by
  obtain ⟨j, hj⟩ := Int.eq_ofNat_of_zero_le (show 0 ≤ x + e by omega)
  refine ⟨2 ^ j, ?_⟩
  rw [← zpow_natCast, ← zpow_add₀ (by norm_num), hj]
  push_cast
  simp

theorem grid_int (m : Int) : Grid 0 (m : ℚ) := ⟨m, by simp⟩

theorem grid_rq_of_ex {e : Nat} {q : ℚ} (h : -(e : Int) ≤ ex q) : Grid e (rq q) := by
  have h1 : Grid e ((sig q : ℚ) * 2 ^ ex q) := by
    have := (grid_int (sig q)).mul (grid_zpow h)
    rw [zero_add] at this
    exact_mod_cast this
  unfold rq
  split
  · exact ⟨0, by simp⟩
  · split
    · exact h1
    · exact h1.neg

/-- The rounded number is on the same grid. -/
theorem Grid.rq {e : Nat} {q : ℚ} (h : Grid e q) (he : e ≤ 1074) : Grid e (rq q) := by
  by_cases hx : -(e : Int) ≤ ex q
  · exact grid_rq_of_ex hx
  · by_cases hq : q = 0
    · rw [hq, rq_zero]; exact ⟨0, by simp⟩
    rw [rq_of_isRep]
    · exact h
    obtain ⟨m, hm⟩ := h
    have hp : (0 : ℚ) < 2 ^ e := by positivity
    refine ⟨m, -(e : Int), ?_, ?_, by omega⟩
    · rw [zpow_neg, zpow_natCast, ← hm, mul_assoc, mul_inv_cancel₀ hp.ne', mul_one]
    · have h2 := (ex_spec hq).2.1
      have h3 : |(m : ℚ)| < 2 ^ 53 := by
        rw [← hm, abs_mul, abs_of_pos hp]
        calc |q| * 2 ^ e < 2 ^ (ex q + 53) * 2 ^ e := mul_lt_mul_of_pos_right h2 hp
          _ = 2 ^ (ex q + 53 + e) := by rw [zpow_add₀ (by norm_num) (ex q + 53), zpow_natCast]
          _ ≤ 2 ^ (53 : Int) := two_zpow_le (by omega)
          _ = 2 ^ 53 := by norm_cast
      exact_mod_cast h3

theorem inv_pow_zpow (L : Nat) : (1 : ℚ) / 2 ^ L = 2 ^ (-(L : Int)) := by
  rw [zpow_neg, zpow_natCast, one_div]

/-- Numbers that are not small have few digits. -/
theorem grid_rq_of_le {L : Nat} {q : ℚ} (h : 1 / 2 ^ L ≤ |q|) : Grid (L + 53) (Fl.rq q) := by
  apply grid_rq_of_ex
  have hq : q ≠ 0 := by
    rintro rfl
    rw [abs_zero] at h
    exact absurd h (not_le.2 (by positivity))
  have h2 := (ex_spec hq).2.1
  rw [inv_pow_zpow] at h
  have := (zpow_lt_zpow_iff_right₀ (by norm_num : (1 : ℚ) < 2)).1 (h.trans_lt h2)
  push_cast
  omega

/-! ## Scaled numbers -/

/-- The number `x'` is `2 ^ k` times `x`, which is a multiple of `1 / 2 ^ e` and at most `2 ^ E`. -/
def Sc (k : Int) (e E : Nat) (x x' : Fl) : Prop := ∃ q : ℚ, x = fin q ∧ x' = fin (2 ^ k * q) ∧ Grid e q ∧ |q| ≤ 2 ^ E

theorem zpow_mul_le {k : Int} {E : Nat} {q : ℚ} (h : |q| ≤ 2 ^ E) : |2 ^ k * q| ≤ 2 ^ (E + k.natAbs) := by
  rw [abs_mul, abs_of_pos (two_zpow_pos k), pow_add, mul_comm]
  refine mul_le_mul h ?_ (two_zpow_pos k).le (by positivity)
  rw [← zpow_natCast]
  exact two_zpow_le (by omega)

theorem le_zpow_mul {k : Int} {e : Nat} {q : ℚ} (h : 1 / 2 ^ e ≤ |q|) : (2 : ℚ) ^ (-((e + k.natAbs : Nat) : Int)) ≤ |2 ^ k * q| := by
  rw [abs_mul, abs_of_pos (two_zpow_pos k)]
  rw [inv_pow_zpow] at h
  calc (2 : ℚ) ^ (-((e + k.natAbs : Nat) : Int)) ≤ 2 ^ (k + -(e : Int)) := two_zpow_le (by omega)
    _ = 2 ^ k * 2 ^ (-(e : Int)) := zpow_add₀ (by norm_num) _ _
    _ ≤ _ := mul_le_mul_of_nonneg_left h (two_zpow_pos k).le

theorem rq_scale_of {k : Int} {e : Nat} {q : ℚ} (h : q = 0 ∨ 1 / 2 ^ e ≤ |q|) (he : e + k.natAbs ≤ 1000) :
    rq (2 ^ k * q) = 2 ^ k * rq q := by
  rcases h with rfl | h
  · rw [mul_zero, rq_zero, mul_zero]
  · refine rq_scale (le_trans (two_zpow_le ?_) (inv_pow_zpow e ▸ h)) (le_trans (two_zpow_le ?_) (le_zpow_mul h))
    · omega
    · omega

/-- One rounding. -/
theorem Sc.rnd {k : Int} {e e' E : Nat} {q : ℚ} (h : q = 0 ∨ 1 / 2 ^ e ≤ |q|) (hg : Grid e' (rq q)) (hE : |q| ≤ 2 ^ E)
    (h1 : e + k.natAbs ≤ 1000) (h2 : E + k.natAbs ≤ 1000) : Sc k e' E (Fl.rnd q) (Fl.rnd (2 ^ k * q)) := by
  refine ⟨rq q, rnd_fin (hE.trans (pow_le_big (by omega))), ?_, hg, abs_rq_le hE⟩
  rw [rnd_fin ((zpow_mul_le hE).trans (pow_le_big h2)), rq_scale_of h h1]

theorem Sc.rndGrid {k : Int} {e E : Nat} {q : ℚ} (hg : Grid e q) (hE : |q| ≤ 2 ^ E)
    (h1 : e + k.natAbs ≤ 1000) (h2 : E + k.natAbs ≤ 1000) : Sc k e E (Fl.rnd q) (Fl.rnd (2 ^ k * q)) :=
  Sc.rnd (or_iff_not_imp_left.2 hg.le_abs) (hg.rq (by omega)) hE h1 h2

section
variable {k l : Int} {e f E G : Nat} {x x' y y' : Fl}

theorem Sc.mono (h : Sc k e E x x') {e' E' : Nat} (h1 : e ≤ e') (h2 : E ≤ E') : Sc k e' E' x x' := by
  obtain ⟨q, a, b, c, d⟩ := h
  exact ⟨q, a, b, c.mono h1, abs_le_pow_mono h2 d⟩

theorem Sc.add (hx : Sc k e E x x') (hy : Sc k e E y y') (h1 : e + k.natAbs ≤ 1000) (h2 : E + 1 + k.natAbs ≤ 1000) :
    Sc k e (E + 1) (x + y) (x' + y') := by
  obtain ⟨p, rfl, rfl, g1, b1⟩ := hx
  obtain ⟨q, rfl, rfl, g2, b2⟩ := hy
  rw [fin_add, fin_add, ← mul_add]
  exact Sc.rndGrid (g1.add g2) (abs_add_le_pow b1 b2) h1 h2

theorem Sc.sub (hx : Sc k e E x x') (hy : Sc k e E y y') (h1 : e + k.natAbs ≤ 1000) (h2 : E + 1 + k.natAbs ≤ 1000) :
    Sc k e (E + 1) (x - y) (x' - y') := by
  obtain ⟨p, rfl, rfl, g1, b1⟩ := hx
  obtain ⟨q, rfl, rfl, g2, b2⟩ := hy
  rw [fin_sub, fin_sub, ← mul_sub]
  exact Sc.rndGrid (g1.sub g2) (abs_sub_le_pow b1 b2) h1 h2

theorem Sc.mul (hx : Sc k e E x x') (hy : Sc l f G y y') (h1 : e + f + (k + l).natAbs ≤ 1000) (h2 : E + G + (k + l).natAbs ≤ 1000) :
    Sc (k + l) (e + f) (E + G) (x * y) (x' * y') := by
  obtain ⟨p, rfl, rfl, g1, b1⟩ := hx
  obtain ⟨q, rfl, rfl, g2, b2⟩ := hy
  rw [fin_mul, fin_mul, show (2 : ℚ) ^ k * p * (2 ^ l * q) = 2 ^ (k + l) * (p * q) by rw [zpow_add₀ (by norm_num)]; ring]
  exact Sc.rndGrid (g1.mul g2) (abs_mul_le_pow b1 b2) h1 h2

theorem Sc.div (hx : Sc k e E x x') (hy : Sc l f G y y') (h0 : (y == 0) = false) (h1 : e + G + (k - l).natAbs ≤ 900)
    (h2 : E + f + (k - l).natAbs ≤ 900) : Sc (k - l) (e + G + 53) (E + f) (x / y) (x' / y') := by
  obtain ⟨p, rfl, rfl, g1, b1⟩ := hx
  obtain ⟨q, rfl, rfl, g2, b2⟩ := hy
  have hq : q ≠ 0 := by
    rintro rfl
    rw [zero_def, beq_fin] at h0
    simp at h0
  have hl := two_zpow_pos l
  rw [fin_div _ _ hq, fin_div _ _ (mul_ne_zero hl.ne' hq),
    show (2 : ℚ) ^ k * p / (2 ^ l * q) = 2 ^ (k - l) * (p / q) by rw [zpow_sub₀ (by norm_num)]; field_simp]
  have hq1 := g2.le_abs hq
  have hqp : 0 < |q| := abs_pos.2 hq
  have hlow : p / q = 0 ∨ 1 / 2 ^ (e + G) ≤ |p / q| := by
    by_cases hp : p = 0
    · left; rw [hp, zero_div]
    · right
      have hp1 := g1.le_abs hp
      rw [abs_div, le_div_iff₀ hqp, pow_add]
      calc 1 / (2 ^ e * 2 ^ G) * |q| ≤ 1 / (2 ^ e * 2 ^ G) * 2 ^ G := mul_le_mul_of_nonneg_left b2 (by positivity)
        _ = 1 / 2 ^ e := by field_simp
        _ ≤ |p| := hp1
  refine Sc.rnd hlow ?_ ?_ (by omega) (by omega)
  · rcases hlow with h | h
    · rw [h, rq_zero]; exact ⟨0, by simp⟩
    · exact grid_rq_of_le h
  · rw [abs_div, div_le_iff₀ hqp, pow_add]
    calc |p| ≤ 2 ^ E := b1
      _ = 2 ^ E * 2 ^ f * (1 / 2 ^ f) := by field_simp
      _ ≤ 2 ^ E * 2 ^ f * |q| := mul_le_mul_of_nonneg_left hq1 (by positivity)

theorem Sc.lt (hx : Sc k e E x x') (hy : Sc k f G y y') : x < y ↔ x' < y' := by
  obtain ⟨p, rfl, rfl, -, -⟩ := hx
  obtain ⟨q, rfl, rfl, -, -⟩ := hy
  rw [lt_fin, lt_fin, mul_lt_mul_iff_right₀ (two_zpow_pos k)]

theorem Sc.le (hx : Sc k e E x x') (hy : Sc k f G y y') : x ≤ y ↔ x' ≤ y' := by
  obtain ⟨p, rfl, rfl, -, -⟩ := hx
  obtain ⟨q, rfl, rfl, -, -⟩ := hy
  rw [le_fin, le_fin, mul_le_mul_iff_right₀ (two_zpow_pos k)]

theorem Sc.beq (hx : Sc k e E x x') (hy : Sc k f G y y') : (x == y) = (x' == y') := by
  obtain ⟨p, rfl, rfl, -, -⟩ := hx
  obtain ⟨q, rfl, rfl, -, -⟩ := hy
  rw [beq_fin, beq_fin, decide_eq_decide, mul_right_inj' (two_zpow_pos k).ne']

theorem sc_zero (k : Int) (e E : Nat) : Sc k e E 0 0 := ⟨0, rfl, by rw [mul_zero]; rfl, ⟨0, by simp⟩, by rw [abs_zero]; positivity⟩

theorem Sc.eq (hx : Sc 0 e E x x') : x = x' := by
  obtain ⟨p, rfl, rfl, -, -⟩ := hx
  rw [zpow_zero, one_mul]

theorem Sc.ok (hx : Sc k e E x x') (h : E + k.natAbs ≤ 900) :
    (x < env.floatMax ∧ x' < env.floatMax) ∧ env.floatMin < x ∧ env.floatMin < x' := by
  obtain ⟨q, rfl, rfl, -, b⟩ := hx
  have hb := zpow_mul_le (k := k) b
  have hbig : ∀ {n : Nat}, n ≤ 900 → (2 : ℚ) ^ n < maxNat := fun {n} hn =>
    lt_of_lt_of_le (pow_lt_pow_right₀ (by norm_num) (by omega : n < 1000)) big_le
  have b1 := abs_lt.1 (b.trans_lt (hbig (by omega)))
  have b2 := abs_lt.1 (hb.trans_lt (hbig h))
  exact ⟨⟨(lt_fin _ _).2 b1.2, (lt_fin _ _).2 b2.2⟩, (lt_fin _ _).2 b1.1, (lt_fin _ _).2 b2.1⟩

theorem Sc.neg (hx : Sc k e E x x') : Sc k e E (-x) (-x') := by
  obtain ⟨q, rfl, rfl, g, b⟩ := hx
  exact ⟨-q, rfl, by rw [neg_fin, mul_neg], g.neg, by rwa [abs_neg]⟩

theorem Sc.fmin (hx : Sc k e E x x') (hy : Sc k e E y y') : Sc k e E (Celltree.fmin x y) (Celltree.fmin x' y') := by
  unfold Celltree.fmin
  by_cases h : y < x
  · rw [if_pos h, if_pos ((hy.lt hx).1 h)]; exact hy
  · rw [if_neg h, if_neg (fun h' => h ((hy.lt hx).2 h'))]; exact hx

theorem Sc.fmax (hx : Sc k e E x x') (hy : Sc k e E y y') : Sc k e E (Celltree.fmax x y) (Celltree.fmax x' y') := by
  unfold Celltree.fmax
  by_cases h : x < y
  · rw [if_pos h, if_pos ((hx.lt hy).1 h)]; exact hy
  · rw [if_neg h, if_neg (fun h' => h ((hx.lt hy).2 h'))]; exact hx

theorem Sc.fabs (hx : Sc k e E x x') : Sc k e E (Celltree.fabs x) (Celltree.fabs x') := by
  unfold Celltree.fabs
  by_cases h : x < 0
  · rw [if_pos h, if_pos ((hx.lt (sc_zero k e E)).1 h)]; exact hx.neg
  · rw [if_neg h, if_neg (fun h' => h ((hx.lt (sc_zero k e E)).2 h'))]; exact hx

end

/-- Integers. -/
theorem sc_int {n : Int} {E : Nat} (h : |n| ≤ 2 ^ E) (hE : E ≤ 900) : Sc 0 0 E ((n : Int) : Fl) ((n : Int) : Fl) := by
  have h' : |(n : ℚ)| ≤ 2 ^ E := by exact_mod_cast h
  have := Sc.rndGrid (k := 0) (grid_int n) h' (by simp) (by simp; omega)
  rw [zpow_zero, one_mul] at this
  exact this

end Celltree.Fl
