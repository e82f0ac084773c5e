import Verif.Proofs.Weights
import Mathlib.Algebra.Order.BigOperators.Ring.Finset
import Mathlib.Algebra.Order.Ring.Pow
import Mathlib.Algebra.BigOperators.Group.Finset.Piecewise
import Mathlib.Tactic.Positivity
import Mathlib.Tactic.Linarith
import Mathlib.Tactic.FieldSimp

/-!
# Wachspress coordinates computed from areas with errors

`σ` is `1` for a counter-clockwise polygon and `-1` for a clockwise one.
-/

set_option linter.unusedSectionVars false

namespace Celltree

variable {K : Type} [Field K] [LinearOrder K] [IsStrictOrderedRing K]

/-- A product of factors close to one. -/
theorem prod_sub_one (J : Finset Nat) (ρ : Nat → K) {B : K} (hB : 1 ≤ B) (h0 : ∀ j ∈ J, 0 ≤ ρ j) (h1 : ∀ j ∈ J, ρ j ≤ B) :
    |∏ j ∈ J, ρ j - 1| ≤ (∑ j ∈ J, |ρ j - 1|) * B ^ J.card := by
  induction J using Finset.induction_on with
  | empty => simp
  | insert a J ha ih =>
    have ih := ih (fun j hj => h0 j (Finset.mem_insert_of_mem hj)) (fun j hj => h1 j (Finset.mem_insert_of_mem hj))
    rw [Finset.prod_insert ha, Finset.sum_insert ha, Finset.card_insert_of_notMem ha, pow_succ]
    have a0 := h0 a (Finset.mem_insert_self _ _)
    have a1 := h1 a (Finset.mem_insert_self _ _)
    have hB0 : 0 < B := lt_of_lt_of_le one_pos hB
    have hp : 1 ≤ B ^ J.card := one_le_pow₀ hB
    have e : ρ a * ∏ j ∈ J, ρ j - 1 = ρ a * (∏ j ∈ J, ρ j - 1) + (ρ a - 1) := by ring
    have hs : 0 ≤ ∑ j ∈ J, |ρ j - 1| := Finset.sum_nonneg fun j _ => abs_nonneg _
    rw [e]
    calc |ρ a * (∏ j ∈ J, ρ j - 1) + (ρ a - 1)| ≤ ρ a * |∏ j ∈ J, ρ j - 1| + |ρ a - 1| := by
          have := abs_add_le (ρ a * (∏ j ∈ J, ρ j - 1)) (ρ a - 1)
          rwa [abs_mul, abs_of_nonneg a0] at this
      _ ≤ B * ((∑ j ∈ J, |ρ j - 1|) * B ^ J.card) + |ρ a - 1| * (B ^ J.card * B) := by
          refine add_le_add (mul_le_mul a1 ih (abs_nonneg _) hB0.le) ?_
          have : 1 ≤ B ^ J.card * B := by nlinarith
          nlinarith [abs_nonneg (ρ a - 1)]
      _ = _ := by ring

/-- Scaling the weights by factors that are close to one where the weights are not small. -/
theorem scaled_mean {n : Nat} {L s x : Nat → K} {θ R : K} (hL : ∀ i < n, 0 ≤ L i) (h1 : ∑ i ∈ Finset.range n, L i = 1)
    (hx : ∑ i ∈ Finset.range n, L i * x i = 0) (hR : ∀ i < n, |x i| ≤ R)
    (hθ : ∑ i ∈ Finset.range n, L i * |s i - 1| ≤ θ) (hθ' : θ ≤ 1 / 2) :
    1 / 2 ≤ ∑ i ∈ Finset.range n, L i * s i ∧
      |∑ i ∈ Finset.range n, L i * s i * x i| ≤ 2 * θ * R * ∑ i ∈ Finset.range n, L i * s i := by
  have e1 : ∑ i ∈ Finset.range n, L i * s i = 1 + ∑ i ∈ Finset.range n, L i * (s i - 1) := by
    have : ∑ i ∈ Finset.range n, L i * s i = ∑ i ∈ Finset.range n, L i + ∑ i ∈ Finset.range n, L i * (s i - 1) := by
      rw [← Finset.sum_add_distrib]
      exact Finset.sum_congr rfl fun i _ => by ring
    rw [this, h1]
  have e2 : |∑ i ∈ Finset.range n, L i * (s i - 1)| ≤ θ := by
    refine (Finset.abs_sum_le_sum_abs _ _).trans (le_trans (Finset.sum_le_sum fun i hi => ?_) hθ)
    rw [abs_mul, abs_of_nonneg (hL i (Finset.mem_range.1 hi))]
  have e3 := abs_le.1 e2
  have hS : 1 / 2 ≤ ∑ i ∈ Finset.range n, L i * s i := by rw [e1]; linarith
  refine ⟨hS, ?_⟩
  have hn : 0 < n := by
    rcases Nat.eq_zero_or_pos n with rfl | h
    · simp at h1
    · exact h
  have hR0 : 0 ≤ R := (abs_nonneg _).trans (hR 0 hn)
  have hθ0 : 0 ≤ θ := (abs_nonneg _).trans e2
  have e4 : ∑ i ∈ Finset.range n, L i * s i * x i = ∑ i ∈ Finset.range n, L i * (s i - 1) * x i := by
    have : ∑ i ∈ Finset.range n, L i * s i * x i = ∑ i ∈ Finset.range n, L i * (s i - 1) * x i + ∑ i ∈ Finset.range n, L i * x i := by
      rw [← Finset.sum_add_distrib]
      exact Finset.sum_congr rfl fun i _ => by ring
    rw [this, hx, add_zero]
  rw [e4]
  calc |∑ i ∈ Finset.range n, L i * (s i - 1) * x i| ≤ ∑ i ∈ Finset.range n, L i * |s i - 1| * R := by
        refine (Finset.abs_sum_le_sum_abs _ _).trans (Finset.sum_le_sum fun i hi => ?_)
        have hi := Finset.mem_range.1 hi
        rw [abs_mul, abs_mul, abs_of_nonneg (hL i hi)]
        exact mul_le_mul_of_nonneg_left (hR i hi) (mul_nonneg (hL i hi) (abs_nonneg _))
    _ = (∑ i ∈ Finset.range n, L i * |s i - 1|) * R := by rw [Finset.sum_mul]
    _ ≤ θ * R := mul_le_mul_of_nonneg_right hθ hR0
    _ ≤ 2 * θ * R * ∑ i ∈ Finset.range n, L i * s i := by
        have := mul_le_mul_of_nonneg_left hS (mul_nonneg hθ0 hR0)
        linarith

section Poly
variable {l : List (Pt K)} (h : 0 < l.length) (σ : K)

/-- Twice the area of the triangle of side `k` and the point, with sign. -/
def sideOr (k : Nat) (q : Pt K) : K := σ * orient (prevCorner h k) (prevCorner h (k + 1)) q

theorem sideOr_period (k : Nat) (q : Pt K) : sideOr h σ (k + l.length) q = sideOr h σ k q := by
  unfold sideOr
  rw [prevCorner_period, show k + l.length + 1 = (k + 1) + l.length from by omega, prevCorner_period]

theorem sideOr_mod (k : Nat) (hk : k ≤ l.length) (q : Pt K) : sideOr h σ (k % l.length) q = sideOr h σ k q := by
  rcases hk.lt_or_eq with h1 | h1
  · rw [Nat.mod_eq_of_lt h1]
  · rw [h1, Nat.mod_self, ← sideOr_period h σ 0, Nat.zero_add]

/-- The weight of corner `k`, not scaled. -/
def wRaw (q : Pt K) (k : Nat) : K := sideOr h σ k (prevCorner h (k + 2)) / (sideOr h σ k q * sideOr h σ (k + 1) q)

variable {h σ}

theorem wRaw_moments (hσ : σ * σ = 1) {q : Pt K} (hA : ∀ k, 0 < sideOr h σ k q) :
    ∑ k ∈ Finset.range l.length, wRaw h σ q k * ((corner l h k).x - q.x) = 0 ∧
    ∑ k ∈ Finset.range l.length, wRaw h σ q k * ((corner l h k).y - q.y) = 0 := by
  have hσ0 : σ ≠ 0 := by rintro rfl; simp at hσ
  have hO : ∀ k, orient (prevCorner h k) (prevCorner h (k + 1)) q ≠ 0 := by
    intro k h0
    have := hA k
    unfold sideOr at this
    rw [h0, mul_zero] at this
    exact lt_irrefl _ this
  have key : ∀ k, wRaw h σ q k = σ * (orient (prevCorner h k) (prevCorner h (k + 1)) (prevCorner h (k + 2)) /
      (orient (prevCorner h k) (prevCorner h (k + 1)) q * orient (prevCorner h (k + 1)) (prevCorner h (k + 2)) q)) := by
    intro k
    have h1 := hO k
    have h2 := hO (k + 1)
    unfold wRaw sideOr
    have e : ∀ a b c : K, σ * a / (σ * b * (σ * c)) = σ * (a / (b * c)) := by
      intro a b c
      rw [show σ * b * (σ * c) = (σ * σ) * (b * c) by ring, hσ, one_mul, mul_div_assoc]
    rw [e]
  have e1 := prevCorner_period h 0
  have e2 := prevCorner_period h 1
  rw [Nat.zero_add] at e1
  rw [Nat.add_comm] at e2
  constructor
  · have : ∀ k, wRaw h σ q k * ((corner l h k).x - q.x) =
        σ * (((prevCorner h (k + 1)).x - (prevCorner h (k + 2)).x) / orient (prevCorner h (k + 1)) (prevCorner h (k + 2)) q) -
        σ * (((prevCorner h k).x - (prevCorner h (k + 1)).x) / orient (prevCorner h k) (prevCorner h (k + 1)) q) := by
      intro k
      rw [key, ← prevCorner_succ, mul_assoc, (wachspress_identity _ _ _ q rfl rfl (hO k) (hO (k + 1))).1]
      ring
    rw [Finset.sum_congr rfl fun k _ => this k,
      Finset.sum_range_sub (fun k => σ * (((prevCorner h k).x - (prevCorner h (k + 1)).x) /
        orient (prevCorner h k) (prevCorner h (k + 1)) q)), e1, e2]
    simp
  · have : ∀ k, wRaw h σ q k * ((corner l h k).y - q.y) =
        σ * (((prevCorner h (k + 1)).y - (prevCorner h (k + 2)).y) / orient (prevCorner h (k + 1)) (prevCorner h (k + 2)) q) -
        σ * (((prevCorner h k).y - (prevCorner h (k + 1)).y) / orient (prevCorner h k) (prevCorner h (k + 1)) q) := by
      intro k
      rw [key, ← prevCorner_succ, mul_assoc, (wachspress_identity _ _ _ q rfl rfl (hO k) (hO (k + 1))).2]
      ring
    rw [Finset.sum_congr rfl fun k _ => this k,
      Finset.sum_range_sub (fun k => σ * (((prevCorner h k).y - (prevCorner h (k + 1)).y) /
        orient (prevCorner h k) (prevCorner h (k + 1)) q)), e1, e2]
    simp

/-- No corner is on the wrong side of a side, and corners that are not ends of the side are at least `δ` away, as an area. -/
structure FatSides (h : 0 < l.length) (σ δ : K) : Prop where
  nonneg : ∀ i j, 0 ≤ sideOr h σ j (corner l h i)
  far : ∀ i < l.length, ∀ j < l.length, j ≠ i → j ≠ (i + 1) % l.length → δ ≤ sideOr h σ j (corner l h i)

/-- The weights computed from areas with errors. -/
theorem near_weights (hσ : σ * σ = 1) (h3 : 3 ≤ l.length) {δ e d D s θ : K} (hδ : 0 < δ) (hf : FatSides h σ δ) {q : Pt K}
    (hA : ∀ k, 0 < sideOr h σ k q) {A' W : Nat → K} (hA' : ∀ k < l.length, 0 < A' k)
    (he : ∀ k < l.length, |A' k - sideOr h σ k q| ≤ e) (hs : 0 ≤ s) (hs' : 2 * (l.length * s) ≤ 1)
    (hup : ∀ k < l.length, (1 - s) * A' k ≤ sideOr h σ k q)
    (hC : ∀ k < l.length, ∃ g, W k = 2 * (sideOr h σ k (prevCorner h (k + 2)) * g) / (A' k * A' ((k + 1) % l.length)) ∧ |g - 1| ≤ d)
    (hD : ∀ k < l.length, |(corner l h k).x - q.x| ≤ D ∧ |(corner l h k).y - q.y| ≤ D)
    (hθ : l.length * (2 * l.length * (1 + d) * (e / δ) + d) ≤ θ) (hθ' : θ ≤ 1 / 2) :
    0 < ∑ k ∈ Finset.range l.length, W k ∧
    |∑ k ∈ Finset.range l.length, W k * ((corner l h k).x - q.x)| ≤ 2 * θ * D * ∑ k ∈ Finset.range l.length, W k ∧
    |∑ k ∈ Finset.range l.length, W k * ((corner l h k).y - q.y)| ≤ 2 * θ * D * ∑ k ∈ Finset.range l.length, W k := by
  set n := l.length with hn
  have hd0 : 0 ≤ d := by
    obtain ⟨g, -, hg⟩ := hC 0 h
    exact (abs_nonneg _).trans hg
  have he0 : 0 ≤ e := (abs_nonneg _).trans (he 0 h)
  have hcor : ∀ k < n, 0 < sideOr h σ k (prevCorner h (k + 2)) := by
    intro k hk
    rw [prevCorner_succ]
    have hk1 : (k + 1) % n < n := Nat.mod_lt _ h
    have e1 : corner l h (k + 1) = corner l h ((k + 1) % n) := by unfold corner; simp [← hn]
    rw [e1]
    refine lt_of_lt_of_le hδ (hf.far _ hk1 k hk ?_ ?_)
    · rcases Nat.lt_or_ge (k + 1) n with h1 | h1
      · rw [Nat.mod_eq_of_lt h1]; omega
      · rw [show k + 1 = n by omega, Nat.mod_self]; omega
    · rcases Nat.lt_or_ge (k + 1) n with h1 | h1
      · rw [Nat.mod_eq_of_lt h1]
        rcases Nat.lt_or_ge (k + 1 + 1) n with h2 | h2
        · rw [Nat.mod_eq_of_lt h2]; omega
        · rw [show k + 1 + 1 = n by omega, Nat.mod_self]; omega
      · rw [show k + 1 = n by omega, Nat.mod_self, Nat.mod_eq_of_lt (by omega)]; omega
  have hw : ∀ k < n, 0 < wRaw h σ q k := fun k hk => div_pos (hcor k hk) (mul_pos (hA k) (hA (k + 1)))
  set S := ∑ k ∈ Finset.range n, wRaw h σ q k with hS
  have hS0 : 0 < S := Finset.sum_pos (fun k hk => hw k (Finset.mem_range.1 hk)) ⟨0, Finset.mem_range.2 h⟩
  obtain ⟨mx, my⟩ := wRaw_moments hσ hA
  set L : Nat → K := fun k => wRaw h σ q k / S with hL
  have L0 : ∀ k < n, 0 ≤ L k := fun k hk => div_nonneg (hw k hk).le hS0.le
  have L1 : ∑ k ∈ Finset.range n, L k = 1 := by
    rw [hL, ← Finset.sum_div, ← hS, div_self hS0.ne']
  have Lx : ∑ k ∈ Finset.range n, L k * ((corner l h k).x - q.x) = 0 := by
    have : ∀ k, L k * ((corner l h k).x - q.x) = wRaw h σ q k * ((corner l h k).x - q.x) / S := fun k => by rw [hL]; ring
    rw [Finset.sum_congr rfl fun k _ => this k, ← Finset.sum_div, mx, zero_div]
  have Ly : ∑ k ∈ Finset.range n, L k * ((corner l h k).y - q.y) = 0 := by
    have : ∀ k, L k * ((corner l h k).y - q.y) = wRaw h σ q k * ((corner l h k).y - q.y) / S := fun k => by rw [hL]; ring
    rw [Finset.sum_congr rfl fun k _ => this k, ← Finset.sum_div, my, zero_div]
  -- an area is at least the weight of a corner times the area of the corner
  have hLA : ∀ i < n, ∀ j < n, j ≠ i → j ≠ (i + 1) % n → L i * δ ≤ sideOr h σ j q := by
    intro i hi j hj h1 h2
    have e1 : sideOr h σ j q = ∑ k ∈ Finset.range n, L k * sideOr h σ j (corner l h k) := by
      have : ∀ k, L k * sideOr h σ j (corner l h k) = L k * sideOr h σ j q +
          (σ * ((prevCorner h (j + 1)).x - (prevCorner h j).x)) * (L k * ((corner l h k).y - q.y)) -
          (σ * ((prevCorner h (j + 1)).y - (prevCorner h j).y)) * (L k * ((corner l h k).x - q.x)) := by
        intro k; unfold sideOr orient; ring
      rw [Finset.sum_congr rfl fun k _ => this k, Finset.sum_sub_distrib, Finset.sum_add_distrib, ← Finset.mul_sum,
        ← Finset.mul_sum, Lx, Ly, ← Finset.sum_mul, L1]
      ring
    rw [e1]
    refine le_trans ?_ (Finset.single_le_sum (f := fun k => L k * sideOr h σ j (corner l h k))
      (fun k hk => mul_nonneg (L0 k (Finset.mem_range.1 hk)) (hf.nonneg k j)) (Finset.mem_range.2 hi))
    exact mul_le_mul_of_nonneg_left (hf.far i hi j hj h1 h2) (L0 i hi)
  choose! g hg1 hg2 using hC
  set ρ : Nat → K := fun j => A' j / sideOr h σ j q with hρ
  set J : Nat → Finset Nat := fun i => (Finset.range n).erase i |>.erase ((i + 1) % n) with hJ
  set t : Nat → K := fun i => g i * ∏ j ∈ J i, ρ j with ht
  have hs1 : 0 < 1 - s := by
    have : (1 : K) ≤ n := by exact_mod_cast h
    nlinarith
  have ρ0 : ∀ j < n, 0 ≤ ρ j := fun j hj => div_nonneg (hA' j hj).le (hA j).le
  have ρ1 : ∀ j < n, ρ j ≤ 1 / (1 - s) := by
    intro j hj
    rw [hρ, div_le_div_iff₀ (hA j) hs1]
    linarith [hup j hj]
  have hB1 : 1 ≤ 1 / (1 - s) := by rw [le_div_iff₀ hs1]; linarith
  have hBn : ∀ m ≤ n, (1 / (1 - s)) ^ m ≤ 2 := by
    intro m hm
    have h1 : (1 / (1 - s)) ^ m ≤ (1 / (1 - s)) ^ n := pow_le_pow_right₀ hB1 hm
    refine h1.trans ?_
    have h2 : 1 - (n : K) * s ≤ (1 - s) ^ n := by
      have := one_add_mul_le_pow (a := -s) (by linarith) n
      rw [← sub_eq_add_neg] at this
      linarith
    rw [one_div, inv_pow, inv_le_comm₀ (pow_pos hs1 n) (by norm_num)]
    linarith
  have hmemJ : ∀ {i j}, j ∈ J i → j < n ∧ j ≠ i ∧ j ≠ (i + 1) % n := by
    intro i j hj
    simp only [hJ, Finset.mem_erase, Finset.mem_range] at hj
    exact ⟨hj.2.2, hj.2.1, hj.1⟩
  -- the factors
  have hsum : ∑ i ∈ Finset.range n, L i * |t i - 1| ≤ θ := by
    refine le_trans ?_ hθ
    calc ∑ i ∈ Finset.range n, L i * |t i - 1| ≤ ∑ _i ∈ Finset.range n, (2 * n * (1 + d) * (e / δ) + d) := by
          refine Finset.sum_le_sum fun i hi => ?_
          have hi := Finset.mem_range.1 hi
          have hLi : L i ≤ 1 := by
            rw [← L1]
            exact Finset.single_le_sum (fun k hk => L0 k (Finset.mem_range.1 hk)) (Finset.mem_range.2 hi)
          have hc : (J i).card ≤ n := by
            refine (Finset.card_le_card ((Finset.erase_subset _ _).trans (Finset.erase_subset _ _))).trans ?_
            simp
          have h1 := prod_sub_one (J i) ρ hB1 (fun j hj => ρ0 j (hmemJ hj).1) (fun j hj => ρ1 j (hmemJ hj).1)
          have h2 : L i * ∑ j ∈ J i, |ρ j - 1| ≤ n * (e / δ) := by
            rw [Finset.mul_sum]
            calc ∑ j ∈ J i, L i * |ρ j - 1| ≤ ∑ _j ∈ J i, e / δ := by
                  refine Finset.sum_le_sum fun j hj => ?_
                  obtain ⟨j1, j2, j3⟩ := hmemJ hj
                  have hAj := hA j
                  have e1 : ρ j - 1 = (A' j - sideOr h σ j q) / sideOr h σ j q := by
                    rw [hρ]; field_simp
                  rw [e1, abs_div, abs_of_pos hAj, le_div_iff₀ hδ, mul_div_assoc', div_mul_eq_mul_div, div_le_iff₀ hAj]
                  have h5 := hLA i hi j j1 j2 j3
                  calc L i * |A' j - sideOr h σ j q| * δ = |A' j - sideOr h σ j q| * (L i * δ) := by ring
                    _ ≤ e * sideOr h σ j q := mul_le_mul (he j j1) h5 (mul_nonneg (L0 i hi) hδ.le) he0
              _ = (J i).card * (e / δ) := by rw [Finset.sum_const, nsmul_eq_mul]
              _ ≤ n * (e / δ) := by
                  refine mul_le_mul_of_nonneg_right (by exact_mod_cast hc) (div_nonneg he0 hδ.le)
          have hsn : 0 ≤ ∑ j ∈ J i, |ρ j - 1| := Finset.sum_nonneg fun j _ => abs_nonneg _
          have h3 : L i * |∏ j ∈ J i, ρ j - 1| ≤ 2 * n * (e / δ) := by
            calc L i * |∏ j ∈ J i, ρ j - 1| ≤ L i * ((∑ j ∈ J i, |ρ j - 1|) * (1 / (1 - s)) ^ (J i).card) :=
                  mul_le_mul_of_nonneg_left h1 (L0 i hi)
              _ ≤ L i * ((∑ j ∈ J i, |ρ j - 1|) * 2) :=
                  mul_le_mul_of_nonneg_left (mul_le_mul_of_nonneg_left (hBn _ hc) hsn) (L0 i hi)
              _ = 2 * (L i * ∑ j ∈ J i, |ρ j - 1|) := by ring
              _ ≤ 2 * (n * (e / δ)) := mul_le_mul_of_nonneg_left h2 (by norm_num)
              _ = _ := by ring
          have hgi := abs_le.1 (hg2 i hi)
          have h4 : |t i - 1| ≤ (1 + d) * |∏ j ∈ J i, ρ j - 1| + d := by
            have e1 : t i - 1 = g i * (∏ j ∈ J i, ρ j - 1) + (g i - 1) := by rw [ht]; ring
            rw [e1]
            refine (abs_add_le _ _).trans (add_le_add ?_ (hg2 i hi))
            rw [abs_mul]
            exact mul_le_mul_of_nonneg_right (abs_le.2 ⟨by linarith, by linarith⟩) (abs_nonneg _)
          calc L i * |t i - 1| ≤ L i * ((1 + d) * |∏ j ∈ J i, ρ j - 1| + d) := mul_le_mul_of_nonneg_left h4 (L0 i hi)
            _ = (1 + d) * (L i * |∏ j ∈ J i, ρ j - 1|) + L i * d := by ring
            _ ≤ (1 + d) * (2 * n * (e / δ)) + 1 * d :=
                add_le_add (mul_le_mul_of_nonneg_left h3 (by linarith)) (mul_le_mul_of_nonneg_right hLi hd0)
            _ = _ := by ring
      _ = n * (2 * n * (1 + d) * (e / δ) + d) := by
          rw [Finset.sum_const, nsmul_eq_mul, Finset.card_range]
  -- the weights are the scaled ones up to a common factor
  set P := ∏ j ∈ Finset.range n, sideOr h σ j q with hP
  set P' := ∏ j ∈ Finset.range n, A' j with hP'
  have hP0 : 0 < P := Finset.prod_pos fun j _ => hA j
  have hP'0 : 0 < P' := Finset.prod_pos fun j hj => hA' j (Finset.mem_range.1 hj)
  set R := 2 * S * P / P' with hR
  have hR0 : 0 < R := by positivity
  have hWt : ∀ i < n, W i = R * (L i * t i) := by
    intro i hi
    have hi1 : (i + 1) % n < n := Nat.mod_lt _ h
    have hne : (i + 1) % n ≠ i := by
      rcases Nat.lt_or_ge (i + 1) n with h1 | h1
      · rw [Nat.mod_eq_of_lt h1]; omega
      · rw [show i + 1 = n by omega, Nat.mod_self]; omega
    have split : ∀ f : Nat → K, ∏ j ∈ Finset.range n, f j = f i * (f ((i + 1) % n) * ∏ j ∈ J i, f j) := by
      intro f
      rw [hJ, Finset.mul_prod_erase _ f (Finset.mem_erase.2 ⟨hne, Finset.mem_range.2 hi1⟩),
        Finset.mul_prod_erase _ f (Finset.mem_range.2 hi)]
    have q1 : P = sideOr h σ i q * (sideOr h σ ((i + 1) % n) q * ∏ j ∈ J i, sideOr h σ j q) := split fun j => sideOr h σ j q
    have q2 : P' = A' i * (A' ((i + 1) % n) * ∏ j ∈ J i, A' j) := split A'
    have q3 : ∏ j ∈ J i, ρ j = (∏ j ∈ J i, A' j) / ∏ j ∈ J i, sideOr h σ j q := by
      rw [hρ, Finset.prod_div_distrib]
    have p1 : 0 < ∏ j ∈ J i, sideOr h σ j q := Finset.prod_pos fun j _ => hA j
    have p2 : 0 < ∏ j ∈ J i, A' j := Finset.prod_pos fun j hj => hA' j (hmemJ hj).1
    have a1 := hA i
    have a2 := hA ((i + 1) % n)
    have a3 := hA' i hi
    have a4 := hA' _ hi1
    have e1 : sideOr h σ (i + 1) q = sideOr h σ ((i + 1) % n) q := (sideOr_mod h σ (i + 1) hi q).symm
    rw [hg1 i hi]
    simp only [hR, hL, ht, wRaw, e1]
    rw [q1, q2, q3]
    generalize (∏ j ∈ J i, A' j) = x1 at *
    generalize (∏ j ∈ J i, sideOr h σ j q) = x2 at *
    generalize sideOr h σ ((i + 1) % n) q = x3 at *
    generalize sideOr h σ i q = x4 at *
    generalize A' ((i + 1) % n) = x5 at *
    generalize A' i = x6 at *
    field_simp
  have hWs : ∑ k ∈ Finset.range n, W k = R * ∑ k ∈ Finset.range n, L k * t k := by
    rw [Finset.mul_sum]
    exact Finset.sum_congr rfl fun k hk => hWt k (Finset.mem_range.1 hk)
  have hWx : ∀ x : Nat → K, ∑ k ∈ Finset.range n, W k * x k = R * ∑ k ∈ Finset.range n, L k * t k * x k := by
    intro x
    rw [Finset.mul_sum]
    exact Finset.sum_congr rfl fun k hk => by rw [hWt k (Finset.mem_range.1 hk)]; ring
  obtain ⟨m1, m2⟩ := scaled_mean (s := t) L0 L1 Lx (fun i hi => (hD i hi).1) hsum hθ'
  obtain ⟨-, m3⟩ := scaled_mean (s := t) L0 L1 Ly (fun i hi => (hD i hi).2) hsum hθ'
  refine ⟨by rw [hWs]; exact mul_pos hR0 (by linarith), ?_, ?_⟩
  · rw [hWx, hWs, abs_mul, abs_of_pos hR0]
    have := mul_le_mul_of_nonneg_left m2 hR0.le
    linarith
  · rw [hWx, hWs, abs_mul, abs_of_pos hR0]
    have := mul_le_mul_of_nonneg_left m3 hR0.le
    linarith

end Poly

end Celltree
