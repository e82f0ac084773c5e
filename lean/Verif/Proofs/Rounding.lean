import Verif.Spec.FloatSize
import Mathlib.Tactic.Linarith
import Mathlib.Tactic.Ring
import Mathlib.Tactic.FieldSimp
import Mathlib.Tactic.NormNum
import Mathlib.Algebra.Order.Field.Power
import Mathlib.Data.Rat.Lemmas
import Mathlib.Data.Nat.Log

/-!
# Rounding to binary64

The rounding function of `Spec/Float.lean` is monotone, leaves representable numbers as they are, and has a relative error
of at most `2 ^ -53`, or an absolute error of at most `2 ^ -1075` for tiny numbers.
-/

namespace Celltree.Fl

theorem two_zpow_pos (e : Int) : (0 : ℚ) < 2 ^ e := zpow_pos (by norm_num) e

theorem two_zpow_le {a b : Int} (h : a ≤ b) : (2 : ℚ) ^ a ≤ 2 ^ b := zpow_le_zpow_right₀ (by norm_num) h

theorem two_zpow_succ (e : Int) : (2 : ℚ) ^ (e + 1) = 2 * 2 ^ e := by
  rw [zpow_add₀ (by norm_num), zpow_one]; ring

theorem scale_pos {n d : Nat} (k : Int) (hd : 0 < d) : 0 < (scale n d k).2 := by
  unfold scale; split
  · exact hd
  · exact Nat.mul_pos hd (by positivity)

theorem scale_eq (n : Nat) {d : Nat} (k : Int) (hd : 0 < d) :
    ((scale n d k).1 : ℚ) / (scale n d k).2 = n / d * 2 ^ k := by
  have hd' : (d : ℚ) ≠ 0 := by exact_mod_cast hd.ne'
  unfold scale; split
  · rename_i h
    obtain ⟨m, rfl⟩ := Int.eq_ofNat_of_zero_le h
    simp only [Int.ofNat_eq_natCast, Int.toNat_natCast, Nat.cast_mul, Nat.cast_pow, Nat.cast_ofNat, zpow_natCast]
    ring
  · rename_i h
    obtain ⟨m, hm⟩ := Int.eq_ofNat_of_zero_le (by omega : 0 ≤ -k)
    have : k = -(m : Int) := by omega
    subst this
    simp only [neg_neg, Int.toNat_natCast, Nat.cast_mul, Nat.cast_pow, Nat.cast_ofNat, zpow_neg, zpow_natCast]
    field_simp

theorem roundDiv_spec (n : Nat) {d : Nat} (hd : 0 < d) : |(roundDiv n d : ℚ) - n / d| ≤ 1 / 2 := by
  have hd' : (0 : ℚ) < d := by exact_mod_cast hd
  have hn : (n : ℚ) = d * (n / d : Nat) + (n % d : Nat) := by exact_mod_cast (Nat.div_add_mod n d).symm
  have hlt : n % d < d := Nat.mod_lt _ hd
  have hr : (n : ℚ) / d = (n / d : Nat) + (n % d : Nat) / d := by
    rw [hn]; field_simp
  rw [hr]
  have h0 : (0 : ℚ) ≤ ((n % d : Nat) : ℚ) / d := by positivity
  have h1 : ((n % d : Nat) : ℚ) / d ≤ 1 := by
    rw [div_le_one hd']; exact_mod_cast hlt.le
  unfold roundDiv
  simp only
  split
  · rename_i h
    have : ((n % d : Nat) : ℚ) / d ≤ 1 / 2 := by
      rw [div_le_div_iff₀ hd' (by norm_num)]; have : ((2 * (n % d) : Nat) : ℚ) ≤ d := by exact_mod_cast h.le
      push_cast at this; linarith
    rw [abs_le]; constructor <;> linarith
  · rename_i h
    have h2 : (1 : ℚ) / 2 ≤ ((n % d : Nat) : ℚ) / d := by
      rw [div_le_div_iff₀ (by norm_num) hd']; have : (d : ℚ) ≤ ((2 * (n % d) : Nat) : ℚ) := by exact_mod_cast (not_lt.1 h)
      push_cast at this; linarith
    split
    · push_cast
      rw [abs_le]; constructor <;> linarith
    · rename_i h'
      have h3 : ((n % d : Nat) : ℚ) / d = 1 / 2 := by
        have : d = 2 * (n % d) := by omega
        have h4 : (d : ℚ) = 2 * ((n % d : Nat) : ℚ) := by exact_mod_cast this
        rw [div_eq_div_iff hd'.ne' (by norm_num)]; linarith
      rw [h3]
      split <;> push_cast <;> rw [abs_le] <;> constructor <;> linarith

theorem roundDiv_exact {n d m : Nat} (hd : 0 < d) (h : (n : ℚ) / d = m) : roundDiv n d = m := by
  have h1 := roundDiv_spec n hd
  rw [h, abs_le] at h1
  have h2 : (roundDiv n d : ℚ) < m + 1 := by linarith
  have h3 : (m : ℚ) < roundDiv n d + 1 := by linarith
  have h4 : roundDiv n d < m + 1 := by exact_mod_cast h2
  have h5 : m < roundDiv n d + 1 := by exact_mod_cast h3
  omega

theorem log2_bounds {n : Nat} (hn : 0 < n) : (2 : ℚ) ^ (Nat.log2 n : Int) ≤ n ∧ (n : ℚ) < 2 ^ ((Nat.log2 n : Int) + 1) := by
  constructor
  · rw [zpow_natCast]; exact_mod_cast Nat.log2_self_le hn.ne'
  · have : n < 2 ^ (Nat.log2 n + 1) := Nat.lt_log2_self
    rw [show ((Nat.log2 n : Int) + 1) = ((Nat.log2 n + 1 : Nat) : Int) by push_cast; rfl, zpow_natCast]
    exact_mod_cast this

theorem lastBit_spec {n d : Nat} (hn : 0 < n) (hd : 0 < d) :
    -1074 ≤ lastBit n d ∧ ((n : ℚ) / d < 2 ^ (lastBit n d + 53)) ∧
      (-1074 < lastBit n d → (2 : ℚ) ^ (lastBit n d + 52) ≤ n / d) := by
  have hd' : (0 : ℚ) < d := by exact_mod_cast hd
  obtain ⟨n1, n2⟩ := log2_bounds hn
  obtain ⟨d1, d2⟩ := log2_bounds hd
  have key : ∃ e1 : Int, lastBit n d = (if e1 < -1074 then -1074 else e1) ∧ (n : ℚ) / d < 2 ^ (e1 + 53) ∧
      (2 : ℚ) ^ (e1 + 52) ≤ n / d := by
    unfold lastBit
    simp only
    generalize he0 : (Nat.log2 n : Int) - (Nat.log2 d : Int) - 52 = e0
    have hup : (n : ℚ) / d < 2 ^ (e0 + 53) := by
      rw [div_lt_iff₀ hd']
      calc (n : ℚ) < 2 ^ ((Nat.log2 n : Int) + 1) := n2
        _ = 2 ^ (e0 + 53) * 2 ^ (Nat.log2 d : Int) := by
            rw [← zpow_add₀ (by norm_num)]; congr 1; omega
        _ ≤ 2 ^ (e0 + 53) * d := by
            exact mul_le_mul_of_nonneg_left d1 (two_zpow_pos _).le
    have hlo : (2 : ℚ) ^ (e0 + 51) ≤ n / d := by
      rw [le_div_iff₀ hd']
      calc (2 : ℚ) ^ (e0 + 51) * d ≤ 2 ^ (e0 + 51) * 2 ^ ((Nat.log2 d : Int) + 1) := by
            exact mul_le_mul_of_nonneg_left d2.le (two_zpow_pos _).le
        _ = 2 ^ (Nat.log2 n : Int) := by rw [← zpow_add₀ (by norm_num)]; congr 1; omega
        _ ≤ n := n1
    have hs := scale_eq n (-e0) hd
    have hsp : (0 : ℚ) < (scale n d (-e0)).2 := by exact_mod_cast scale_pos (n := n) (-e0) hd
    split
    · rename_i h
      refine ⟨e0 - 1, rfl, ?_, ?_⟩
      · have h1 : (scale n d (-e0)).1 < 2 ^ 52 * (scale n d (-e0)).2 := by
          rwa [Nat.div_lt_iff_lt_mul (scale_pos _ hd)] at h
        have h2 : ((scale n d (-e0)).1 : ℚ) / (scale n d (-e0)).2 < 2 ^ 52 := by
          rw [div_lt_iff₀ hsp]; exact_mod_cast h1
        rw [hs, zpow_neg] at h2
        have h3 : (n : ℚ) / d < 2 ^ 52 * 2 ^ e0 := by
          rwa [← div_eq_mul_inv, div_lt_iff₀ (two_zpow_pos e0)] at h2
        calc (n : ℚ) / d < 2 ^ 52 * 2 ^ e0 := h3
          _ = 2 ^ (e0 - 1 + 53) := by
            rw [show e0 - 1 + 53 = (52 : Int) + e0 by ring, zpow_add₀ (by norm_num)]; norm_cast
      · rw [show e0 - 1 + 52 = e0 + 51 by ring]; exact hlo
    · rename_i h
      refine ⟨e0, rfl, hup, ?_⟩
      have h1 : 2 ^ 52 * (scale n d (-e0)).2 ≤ (scale n d (-e0)).1 := by
        rwa [not_lt, Nat.le_div_iff_mul_le (scale_pos _ hd)] at h
      have h2 : (2 : ℚ) ^ 52 ≤ ((scale n d (-e0)).1 : ℚ) / (scale n d (-e0)).2 := by
        rw [le_div_iff₀ hsp]; exact_mod_cast h1
      rw [hs, zpow_neg, ← div_eq_mul_inv, le_div_iff₀ (two_zpow_pos e0)] at h2
      calc (2 : ℚ) ^ (e0 + 52) = 2 ^ 52 * 2 ^ e0 := by
            rw [show e0 + 52 = (52 : Int) + e0 by ring, zpow_add₀ (by norm_num)]; norm_cast
        _ ≤ n / d := h2
  obtain ⟨e1, h, h1, h2⟩ := key
  rw [h]
  split
  · rename_i hlt
    refine ⟨le_refl _, lt_of_lt_of_le h1 (two_zpow_le (by omega)), fun h => absurd h (lt_irrefl _)⟩
  · rename_i hlt
    exact ⟨by omega, h1, fun _ => h2⟩

/-- Exponent of the last bit of the significand of a number. -/
def ex (q : ℚ) : Int := lastBit q.num.natAbs q.den

/-- The integer significand of the rounded absolute value. -/
def sig (q : ℚ) : Nat := roundDiv (scale q.num.natAbs q.den (-ex q)).1 (scale q.num.natAbs q.den (-ex q)).2

/-- Rounding with unbounded exponent. -/
def rq (q : ℚ) : ℚ := if q = 0 then 0 else if 0 < q then sig q * 2 ^ ex q else -(sig q * 2 ^ ex q)

theorem abs_eq_div (q : ℚ) : |q| = (q.num.natAbs : ℚ) / q.den := by
  have h : (q.num.natAbs : ℚ) = |(q.num : ℚ)| := by
    rw [← Int.cast_abs, Int.abs_eq_natAbs]; rfl
  rw [h]
  conv_lhs => rw [← Rat.num_div_den q]
  rw [abs_div, Nat.abs_cast]

theorem rnd_eq (q : ℚ) :
    rnd q = if |rq q| ≤ maxNat then fin (rq q) else if 0 < q then pinf else ninf := by
  unfold rnd rq
  by_cases h0 : q = 0
  · simp [h0]
  · rw [if_neg h0, if_neg h0]
    have hv : (if 0 ≤ lastBit q.num.natAbs q.den
        then ((roundDiv (scale q.num.natAbs q.den (-lastBit q.num.natAbs q.den)).1
          (scale q.num.natAbs q.den (-lastBit q.num.natAbs q.den)).2 * 2 ^ (lastBit q.num.natAbs q.den).toNat : Nat) : ℚ)
        else mkRat (roundDiv (scale q.num.natAbs q.den (-lastBit q.num.natAbs q.den)).1
          (scale q.num.natAbs q.den (-lastBit q.num.natAbs q.den)).2) (2 ^ (-lastBit q.num.natAbs q.den).toNat)) =
        (sig q : ℚ) * 2 ^ ex q := by
      unfold sig ex
      generalize lastBit q.num.natAbs q.den = e
      generalize roundDiv _ _ = m
      split
      · rename_i h
        obtain ⟨k, rfl⟩ := Int.eq_ofNat_of_zero_le h
        simp
      · rename_i h
        obtain ⟨k, hk⟩ := Int.eq_ofNat_of_zero_le (by omega : 0 ≤ -e)
        have : e = -(k : Int) := by omega
        subst this
        rw [Rat.mkRat_eq_div]
        simp only [neg_neg, Int.toNat_natCast, zpow_neg, zpow_natCast, Int.cast_natCast, Nat.cast_pow, Nat.cast_ofNat]
        rw [div_eq_mul_inv]
    simp only [hv]
    have hnn : (0 : ℚ) ≤ sig q * 2 ^ ex q := mul_nonneg (Nat.cast_nonneg _) (two_zpow_pos _).le
    by_cases hp : 0 < q
    · simp only [if_pos hp, abs_of_nonneg hnn]
      by_cases hm : (maxNat : ℚ) < sig q * 2 ^ ex q
      · rw [if_pos hm, if_neg (not_le.2 hm)]
      · rw [if_neg hm, if_pos (not_lt.1 hm)]
    · simp only [if_neg hp, abs_neg, abs_of_nonneg hnn]
      by_cases hm : (maxNat : ℚ) < sig q * 2 ^ ex q
      · rw [if_pos hm, if_neg (not_le.2 hm)]
      · rw [if_neg hm, if_pos (not_lt.1 hm)]

theorem ex_spec {q : ℚ} (h : q ≠ 0) :
    -1074 ≤ ex q ∧ |q| < 2 ^ (ex q + 53) ∧ (-1074 < ex q → (2 : ℚ) ^ (ex q + 52) ≤ |q|) := by
  rw [abs_eq_div]
  exact lastBit_spec (Int.natAbs_pos.2 (Rat.num_ne_zero.2 h)) q.den_pos

theorem sig_spec (q : ℚ) : |(sig q : ℚ) - |q| * 2 ^ (-ex q)| ≤ 1 / 2 := by
  have := roundDiv_spec (scale q.num.natAbs q.den (-ex q)).1 (scale_pos (n := q.num.natAbs) (-ex q) q.den_pos)
  rwa [scale_eq _ _ q.den_pos, ← abs_eq_div] at this

theorem mul_zpow_neg (x : ℚ) (e : Int) : x * 2 ^ (-e) * 2 ^ e = x := by
  rw [mul_assoc, ← zpow_add₀ (by norm_num)]; simp

/-- The absolute error is at most half a unit in the last place. -/
theorem rq_err_ex (q : ℚ) : |rq q - q| ≤ 2 ^ ex q / 2 := by
  have hpos := two_zpow_pos (ex q)
  have h1 := sig_spec q
  have h2 : abs ((sig q : ℚ) * 2 ^ ex q - abs q) ≤ 2 ^ ex q / 2 := by
    have : (sig q : ℚ) * 2 ^ ex q - |q| = ((sig q : ℚ) - |q| * 2 ^ (-ex q)) * 2 ^ ex q := by
      rw [sub_mul, mul_zpow_neg]
    rw [this, abs_mul, abs_of_pos hpos]
    calc _ ≤ 1 / 2 * 2 ^ ex q := mul_le_mul_of_nonneg_right h1 hpos.le
      _ = _ := by ring
  unfold rq
  by_cases h0 : q = 0
  · rw [if_pos h0, h0]; simp only [sub_zero, abs_zero]; exact (div_pos (two_zpow_pos _) two_pos).le
  · rw [if_neg h0]
    split
    · rename_i hp
      rwa [abs_of_pos hp] at h2
    · rename_i hp
      have hneg : q < 0 := lt_of_le_of_ne (not_lt.1 hp) h0
      rw [abs_of_neg hneg] at h2
      rw [← abs_neg]
      convert h2 using 2
      ring

/-- Half the distance between 1 and the next number. -/
def u : ℚ := 1 / 2 ^ 53

/-- Half the smallest positive number. -/
def eta : ℚ := 1 / 2 ^ 1075

/-- Error of one rounding: relative for normal numbers, absolute for tiny numbers. -/
theorem rq_err (q : ℚ) : |rq q - q| ≤ u * |q| ∨ |rq q - q| ≤ eta := by
  by_cases h0 : q = 0
  · left; subst h0; simp [rq]
  · obtain ⟨h1, h2, h3⟩ := ex_spec h0
    rcases h1.eq_or_lt with h | h
    · right
      refine (rq_err_ex q).trans (le_of_eq ?_)
      rw [← h]; unfold eta
      rw [show (1075 : Nat) = 1074 + 1 from rfl, pow_succ, zpow_neg, show ((1074 : Int)) = ((1074 : Nat) : Int) from rfl,
        zpow_natCast, one_div, mul_inv, div_eq_mul_inv]
    · left
      refine (rq_err_ex q).trans ?_
      have := h3 h
      rw [zpow_add₀ (by norm_num)] at this
      unfold u
      have e : ((2 : ℚ) ^ (52 : Int)) = 2 ^ 52 := by norm_cast
      rw [e] at this
      nlinarith

theorem u_pos : 0 < u := by unfold u; positivity
theorem eta_pos : 0 < eta := by unfold eta; positivity

theorem rq_err_add (q : ℚ) : |rq q - q| ≤ u * |q| + eta := by
  rcases rq_err q with h | h
  · linarith [eta_pos]
  · have := mul_nonneg u_pos.le (abs_nonneg q); linarith

theorem sig_le (q : ℚ) (h : q ≠ 0) : sig q ≤ 2 ^ 53 := by
  obtain ⟨_, h2, _⟩ := ex_spec h
  have h1 := sig_spec q
  rw [abs_le] at h1
  have h3 : |q| * 2 ^ (-ex q) < 2 ^ 53 := by
    have := mul_lt_mul_of_pos_right h2 (two_zpow_pos (-ex q))
    rw [← zpow_add₀ (by norm_num)] at this
    calc _ < _ := this
      _ = 2 ^ 53 := by rw [show ex q + 53 + -ex q = (53 : Int) by ring]; norm_cast
  have h4 : (sig q : ℚ) < (2 ^ 53 : Nat) + 1 := by push_cast; linarith [h1.2]
  have h5 : sig q < 2 ^ 53 + 1 := by exact_mod_cast h4
  omega

theorem le_sig (q : ℚ) (h : q ≠ 0) (he : -1074 < ex q) : 2 ^ 52 ≤ sig q := by
  obtain ⟨_, _, h2⟩ := ex_spec h
  have h2 := h2 he
  have h1 := sig_spec q
  rw [abs_le] at h1
  have h3 : (2 : ℚ) ^ 52 ≤ |q| * 2 ^ (-ex q) := by
    have := mul_le_mul_of_nonneg_right h2 (two_zpow_pos (-ex q)).le
    rw [← zpow_add₀ (by norm_num)] at this
    calc (2 : ℚ) ^ 52 = 2 ^ (ex q + 52 + -ex q) := by rw [show ex q + 52 + -ex q = (52 : Int) by ring]; norm_cast
      _ ≤ _ := this
  have h4 : ((2 ^ 52 : Nat) : ℚ) < sig q + 1 := by push_cast; linarith [h1.1]
  have h5 : 2 ^ 52 < sig q + 1 := by exact_mod_cast h4
  omega

theorem ex_neg (q : ℚ) : ex (-q) = ex q := by unfold ex; simp
theorem sig_neg (q : ℚ) : sig (-q) = sig q := by unfold sig; rw [ex_neg]; simp

theorem rq_zero : rq 0 = 0 := by simp [rq]

theorem rq_neg (q : ℚ) : rq (-q) = -rq q := by
  unfold rq
  rw [sig_neg, ex_neg]
  rcases lt_trichotomy q 0 with h | h | h
  · simp [h.ne, h, not_lt.2 h.le]
  · simp [h]
  · simp [h.ne', h, not_lt.2 h.le]

theorem rq_pos {q : ℚ} (h : 0 < q) : rq q = sig q * 2 ^ ex q := by
  unfold rq; rw [if_neg h.ne', if_pos h]

theorem rq_nonneg {q : ℚ} (h : 0 ≤ q) : 0 ≤ rq q := by
  rcases h.eq_or_lt with rfl | h
  · rw [rq_zero]
  · rw [rq_pos h]; exact mul_nonneg (Nat.cast_nonneg _) (two_zpow_pos _).le

theorem ex_mono {p q : ℚ} (hp : 0 < p) (h : p ≤ q) : ex p ≤ ex q := by
  by_contra hlt
  push Not at hlt
  obtain ⟨p1, p2, p3⟩ := ex_spec hp.ne'
  obtain ⟨q1, q2, q3⟩ := ex_spec (hp.trans_le h).ne'
  have := p3 (by omega)
  rw [abs_of_pos hp] at this
  rw [abs_of_pos (hp.trans_le h)] at q2
  have h4 : (2 : ℚ) ^ (ex q + 53) ≤ 2 ^ (ex p + 52) := two_zpow_le (by omega)
  linarith

theorem rq_mono_pos {p q : ℚ} (hp : 0 < p) (h : p ≤ q) : rq p ≤ rq q := by
  rcases h.eq_or_lt with rfl | hlt
  · exact le_refl _
  have hq := hp.trans hlt
  rw [rq_pos hp, rq_pos hq]
  rcases (ex_mono hp h).eq_or_lt with he | he
  · rw [he]
    refine mul_le_mul_of_nonneg_right ?_ (two_zpow_pos _).le
    by_contra hs
    push Not at hs
    have hs' : sig q < sig p := by exact_mod_cast hs
    have h1 : ((sig q : ℚ)) + 1 ≤ sig p := by exact_mod_cast hs'
    have h2 := (abs_le.1 (sig_spec p)).2
    have h3 := (abs_le.1 (sig_spec q)).1
    rw [abs_of_pos hp, he] at h2
    rw [abs_of_pos hq] at h3
    have := mul_lt_mul_of_pos_right hlt (two_zpow_pos (-ex q))
    linarith
  · have h1 := sig_le p hp.ne'
    have h2 := le_sig q hq.ne' (lt_of_le_of_lt (ex_spec hp.ne').1 he)
    have h1' : (sig p : ℚ) ≤ 2 ^ 53 := by exact_mod_cast h1
    have h2' : (2 : ℚ) ^ 52 ≤ sig q := by exact_mod_cast h2
    have h3 : (2 : ℚ) ^ (ex p + 1) ≤ 2 ^ ex q := two_zpow_le (by omega)
    rw [two_zpow_succ] at h3
    have hpp := two_zpow_pos (ex p)
    calc (sig p : ℚ) * 2 ^ ex p ≤ 2 ^ 53 * 2 ^ ex p := mul_le_mul_of_nonneg_right h1' hpp.le
      _ = 2 ^ 52 * (2 * 2 ^ ex p) := by ring
      _ ≤ 2 ^ 52 * 2 ^ ex q := mul_le_mul_of_nonneg_left h3 (by positivity)
      _ ≤ _ := mul_le_mul_of_nonneg_right h2' (two_zpow_pos _).le

theorem rq_mono {p q : ℚ} (h : p ≤ q) : rq p ≤ rq q := by
  rcases lt_trichotomy p 0 with hp | hp | hp
  · rcases lt_or_ge q 0 with hq | hq
    · have := rq_mono_pos (p := -q) (q := -p) (by linarith) (by linarith)
      rw [rq_neg, rq_neg] at this; linarith
    · have h1 := rq_nonneg hq
      have h2 := rq_nonneg (q := -p) (by linarith)
      rw [rq_neg] at h2; linarith
  · subst hp; rw [rq_zero]; exact rq_nonneg h
  · exact rq_mono_pos hp h

theorem rq_isRep_pos {q : ℚ} (h : 0 < q) : IsRep (rq q) := by
  rw [rq_pos h]
  have h1 := sig_le q h.ne'
  have h2 := (ex_spec h.ne').1
  rcases h1.eq_or_lt with h3 | h3
  · refine ⟨2 ^ 52, ex q + 1, ?_, by norm_num, by omega⟩
    rw [h3, two_zpow_succ]; push_cast; ring
  · refine ⟨sig q, ex q, by push_cast; rfl, ?_, h2⟩
    rw [abs_of_nonneg (by positivity)]; exact_mod_cast h3

theorem IsRep.neg {q : ℚ} (h : IsRep q) : IsRep (-q) := by
  obtain ⟨m, e, rfl, h1, h2⟩ := h
  exact ⟨-m, e, by push_cast; ring, by rwa [abs_neg], h2⟩

theorem isRep_zero : IsRep 0 := ⟨0, 0, by simp, by norm_num, by norm_num⟩

theorem rq_isRep (q : ℚ) : IsRep (rq q) := by
  rcases lt_trichotomy q 0 with h | h | h
  · have := (rq_isRep_pos (q := -q) (by linarith)).neg
    rwa [rq_neg, neg_neg] at this
  · subst h; rw [rq_zero]; exact isRep_zero
  · exact rq_isRep_pos h

theorem rq_of_isRep_pos {q : ℚ} (h : IsRep q) (hq : 0 < q) : rq q = q := by
  obtain ⟨m, e, rfl, h1, h2⟩ := h
  set q : ℚ := (m : ℚ) * 2 ^ e with hqe
  have hm : 0 < m := by
    have := (mul_pos_iff_of_pos_right (two_zpow_pos e)).1 hq
    exact_mod_cast this
  obtain ⟨x1, x2, x3⟩ := ex_spec hq.ne'
  rw [abs_of_pos hq] at x2 x3
  rw [abs_of_pos hm] at h1
  -- the exponent is at most `e`
  have hle : ex q ≤ e := by
    by_contra hlt
    push Not at hlt
    have h3 := x3 (by omega)
    have h4 : (m : ℚ) < 2 ^ 53 := by exact_mod_cast h1
    have h5 : q < 2 ^ (53 : Int) * 2 ^ e := by
      rw [hqe]; refine mul_lt_mul_of_pos_right ?_ (two_zpow_pos e)
      calc (m : ℚ) < 2 ^ 53 := h4
        _ = _ := by norm_cast
    rw [← zpow_add₀ (by norm_num)] at h5
    have h6 : (2 : ℚ) ^ ((53 : Int) + e) ≤ 2 ^ (ex q + 52) := two_zpow_le (by omega)
    linarith
  obtain ⟨k, hk⟩ := Int.eq_ofNat_of_zero_le (by omega : 0 ≤ e - ex q)
  have hs : sig q = m.toNat * 2 ^ k := by
    unfold sig
    apply roundDiv_exact (scale_pos _ q.den_pos)
    rw [scale_eq _ _ q.den_pos, ← abs_eq_div, abs_of_pos hq]
    have : (m.toNat : ℚ) = m := by
      have := Int.toNat_of_nonneg hm.le
      exact_mod_cast congrArg (Int.cast : Int → ℚ) this
    push_cast
    rw [this, hqe, mul_assoc, ← zpow_add₀ (by norm_num), ← zpow_natCast (2 : ℚ) k]
    rw [show e + -ex q = (k : Int) by omega]
  rw [rq_pos hq, hs]
  have : (m.toNat : ℚ) = m := by
    have := Int.toNat_of_nonneg hm.le
    exact_mod_cast congrArg (Int.cast : Int → ℚ) this
  push_cast
  rw [this, mul_assoc, ← zpow_natCast (2 : ℚ) k, ← zpow_add₀ (by norm_num), show (k : Int) + ex q = e by omega]

/-- Representable numbers are not changed. -/
theorem rq_of_isRep {q : ℚ} (h : IsRep q) : rq q = q := by
  rcases lt_trichotomy q 0 with hq | hq | hq
  · have := rq_of_isRep_pos h.neg (by linarith)
    rw [rq_neg] at this; linarith
  · subst hq; exact rq_zero
  · exact rq_of_isRep_pos h hq

theorem isRep_maxNat : IsRep (maxNat : ℚ) := by
  refine ⟨2 ^ 53 - 1, 971, ?_, by norm_num, by norm_num⟩
  unfold maxNat
  rw [show ((971 : Int)) = ((971 : Nat) : Int) from rfl, zpow_natCast]
  push_cast
  rfl

/-- Rounding to a representable bound. -/
theorem rq_le {q r : ℚ} (hr : IsRep r) (h : q ≤ r) : rq q ≤ r := by
  have := rq_mono h; rwa [rq_of_isRep hr] at this

theorem le_rq {q r : ℚ} (hr : IsRep r) (h : r ≤ q) : r ≤ rq q := by
  have := rq_mono h; rwa [rq_of_isRep hr] at this

theorem abs_rq (q : ℚ) : |rq q| = rq |q| := by
  rcases le_total 0 q with h | h
  · rw [abs_of_nonneg h, abs_of_nonneg (rq_nonneg h)]
  · rw [abs_of_nonpos h, rq_neg]
    rw [abs_of_nonpos]
    have := rq_nonneg (q := -q) (by linarith)
    rw [rq_neg] at this; linarith

/-- No overflow. -/
theorem rnd_fin {q : ℚ} (h : |q| ≤ maxNat) : rnd q = fin (rq q) := by
  rw [rnd_eq, if_pos]
  rw [abs_rq]
  exact rq_le isRep_maxNat h

/-- A difference of different representable numbers is at least the smallest positive number. -/
theorem isRep_sub {a b : ℚ} (ha : IsRep a) (hb : IsRep b) (h : a < b) : 2 ^ (-1074 : Int) ≤ b - a := by
  obtain ⟨m, e, rfl, _, he⟩ := ha
  obtain ⟨m', e', rfl, _, he'⟩ := hb
  obtain ⟨k, hk⟩ := Int.eq_ofNat_of_zero_le (by omega : 0 ≤ e + 1074)
  obtain ⟨k', hk'⟩ := Int.eq_ofNat_of_zero_le (by omega : 0 ≤ e' + 1074)
  have e1 : (2 : ℚ) ^ e = 2 ^ k * 2 ^ (-1074 : Int) := by
    rw [← zpow_natCast (2 : ℚ) k, ← zpow_add₀ (by norm_num)]; congr 1; omega
  have e2 : (2 : ℚ) ^ e' = 2 ^ k' * 2 ^ (-1074 : Int) := by
    rw [← zpow_natCast (2 : ℚ) k', ← zpow_add₀ (by norm_num)]; congr 1; omega
  have hp := two_zpow_pos (-1074)
  rw [e1, e2] at h ⊢
  have h1 : (m : ℚ) * 2 ^ k < m' * 2 ^ k' := by
    have : (m : ℚ) * 2 ^ k * 2 ^ (-1074 : Int) < m' * 2 ^ k' * 2 ^ (-1074 : Int) := by linarith
    exact lt_of_mul_lt_mul_right this hp.le
  have h2 : m * 2 ^ k + 1 ≤ m' * 2 ^ k' := by
    have : m * 2 ^ k < m' * 2 ^ k' := by exact_mod_cast h1
    omega
  have h3 : (m : ℚ) * 2 ^ k + 1 ≤ m' * 2 ^ k' := by exact_mod_cast h2
  nlinarith

theorem isRep_tiny : IsRep (2 ^ (-1074 : Int)) := ⟨1, -1074, by simp, by norm_num, le_refl _⟩

/-- The difference of different representable numbers is not rounded to zero. -/
theorem rq_sub_ne {a b : ℚ} (ha : IsRep a) (hb : IsRep b) (h : a < b) : 0 < rq (b - a) :=
  lt_of_lt_of_le (two_zpow_pos _) (le_rq isRep_tiny (isRep_sub ha hb h))

end Celltree.Fl
