import Verif.Proofs.WeightsNear
import Verif.Proofs.WachspressRun
import Verif.Proofs.FloatSqrt
import Verif.Proofs.FloatWeights

/-!
# The Wachspress weights of a polygon in binary64
-/

set_option linter.unusedSectionVars false

namespace Celltree.Fl

/-- A convex polygon that is not thin, stored counter-clockwise (`σ = 1`) or clockwise (`σ = -1`). -/
structure FatStored (M D κ tol : ℚ) {l : List (Pt ℚ)} (h : 0 < l.length) (σ : ℚ) : Prop where
  three : 3 ≤ l.length
  sign : σ * σ = 1
  bnd : ∀ k, Bnd M (corner l h k)
  near : ∀ i j, |(corner l h i).x - (corner l h j).x| ≤ D ∧ |(corner l h i).y - (corner l h j).y| ≤ D
  fat : ∀ i < l.length, ∀ j < l.length, j ≠ i → j ≠ (i + 1) % l.length → D * D ≤ κ * sideOr h σ j (corner l h i)
  kappa : 1 ≤ κ
  slack_le : slack M D ≤ tol
  tol_le : 256 * (l.length * κ) ^ 2 * tol ≤ D
  M_ge : 1 / 2 ^ 100 ≤ M
  M_le : M ≤ 2 ^ 100

variable {M D κ tol σ : ℚ} {l : List (Pt ℚ)} {h : 0 < l.length}

theorem abs_sign (hσ : σ * σ = 1) : |σ| = 1 := by
  have h1 : |σ| * |σ| = 1 := by rw [abs_mul_abs_self]; exact hσ
  rcases mul_self_eq_one_iff.1 h1 with h2 | h2
  · exact h2
  · have := abs_nonneg σ
    linarith

namespace FatStored
variable (F : FatStored M D κ tol h σ)
include F

theorem D_nonneg : 0 ≤ D := (abs_nonneg _).trans (F.near 0 0).1

theorem tol_ge : 1 / 2 ^ 160 ≤ tol := (slack_small F.M_ge F.D_nonneg).trans F.slack_le

theorem tol_pos : 0 < tol := lt_of_lt_of_le (by positivity) F.tol_ge

theorem M_pos : 0 < M := lt_of_lt_of_le (by positivity) F.M_ge

theorem tol_M : 8 * u * M ≤ tol := by
  have := F.slack_le
  rw [slack_eq] at this
  have := mul_nonneg u_pos.le F.D_nonneg
  linarith

theorem tol_D : 64 * u * D ≤ tol := by
  have := F.slack_le
  rw [slack_eq] at this
  have := mul_nonneg u_pos.le F.M_pos.le
  linarith

theorem prev_near (i j : Nat) : |(prevCorner h i).x - (prevCorner h j).x| ≤ D ∧ |(prevCorner h i).y - (prevCorner h j).y| ≤ D := by
  unfold prevCorner; exact F.near _ _

/-- The area of a side and a point, from the distances. -/
theorem side_le (k : Nat) {q q' : Pt ℚ} {r : ℚ} (h1 : |q.x - q'.x| ≤ r) (h2 : |q.y - q'.y| ≤ r) :
    |sideOr h σ k q - sideOr h σ k q'| ≤ 2 * D * r := by
  unfold sideOr
  rw [← mul_sub, abs_mul, abs_sign F.sign, one_mul]
  obtain ⟨d1, d2⟩ := F.prev_near (k + 1) k
  have := orient_diff (a := prevCorner h k) (b := prevCorner h (k + 1)) (p := q) (q := q') (τ := r / 2) d1 d2 (by linarith) (by linarith)
  linarith

theorem side_self (k : Nat) : sideOr h σ k (prevCorner h k) = 0 ∧ sideOr h σ k (prevCorner h (k + 1)) = 0 := by
  unfold sideOr orient
  constructor <;> ring

theorem n_ge : (3 : ℚ) ≤ l.length := by exact_mod_cast F.three

theorem nκ_ge : 9 ≤ ((l.length : ℚ) * κ) ^ 2 := by
  have h1 := F.n_ge
  have h2 : (3 : ℚ) * 1 ≤ l.length * κ := mul_le_mul h1 F.kappa (by norm_num) (by linarith)
  nlinarith

theorem tol_small : 2304 * tol ≤ D := by
  have h1 := mul_le_mul_of_nonneg_right F.nκ_ge F.tol_pos.le
  have h2 := F.tol_le
  linarith

theorem D_pos : 0 < D := by
  have h1 := F.tol_small
  have h2 := F.tol_pos
  linarith

theorem D_ge : 1 / 2 ^ 160 ≤ D := by
  have h1 := F.tol_small
  have h2 := F.tol_pos
  exact F.tol_ge.trans (by linarith)

theorem nκ_le : ((l.length : ℚ) * κ) ^ 2 ≤ 2 ^ 39 := by
  have h1 := F.tol_le
  have h2 := F.tol_D
  have h3 := F.D_pos
  have h4 := mul_le_mul_of_nonneg_left h2 (show 0 ≤ 256 * ((l.length : ℚ) * κ) ^ 2 by positivity)
  have h5 : 256 * ((l.length : ℚ) * κ) ^ 2 * (64 * u) * D ≤ 1 * D := by linarith
  have h6 := le_of_mul_le_mul_right h5 h3
  unfold u at h6
  linarith

theorem κ_le : κ ≤ 2 ^ 20 := by
  have h1 := F.nκ_le
  have h2 := F.n_ge
  have h3 := F.kappa
  have h4 : κ ^ 2 ≤ (l.length * κ) ^ 2 := pow_le_pow_left₀ (by linarith) (by nlinarith) 2
  by_contra hc
  have h5 : ((2 : ℚ) ^ 20) ^ 2 < κ ^ 2 := pow_lt_pow_left₀ (not_le.1 hc) (by norm_num) (by norm_num)
  have h6 : ((2 : ℚ) ^ 20) ^ 2 = 2 ^ 40 := by norm_num
  rw [h6] at h5
  norm_num at h5 h1 h4
  linarith

theorem n_le : (l.length : ℚ) ≤ 2 ^ 20 := by
  have h1 := F.nκ_le
  have h2 := F.n_ge
  have h3 := F.kappa
  have h4 : (l.length : ℚ) ^ 2 ≤ (l.length * κ) ^ 2 := pow_le_pow_left₀ (by linarith) (by nlinarith) 2
  by_contra hc
  have h5 : ((2 : ℚ) ^ 20) ^ 2 < (l.length : ℚ) ^ 2 := pow_lt_pow_left₀ (not_le.1 hc) (by norm_num) (by norm_num)
  have h6 : ((2 : ℚ) ^ 20) ^ 2 = 2 ^ 40 := by norm_num
  rw [h6] at h5
  norm_num at h5 h1 h4
  linarith

theorem next_far {k : Nat} (hk : k < l.length) : D * D ≤ κ * sideOr h σ k (prevCorner h (k + 2)) := by
  have h3 := F.three
  rw [show k + 2 = (k + 1) + 1 from rfl, prevCorner_succ]
  have e : corner l h (k + 1) = corner l h ((k + 1) % l.length) := by unfold corner; simp
  rw [e]
  have m : (k + 1) % l.length = if k + 1 = l.length then 0 else k + 1 := by
    split
    · rw [‹k + 1 = l.length›, Nat.mod_self]
    · exact Nat.mod_eq_of_lt (by omega)
  have m' : ((k + 1) % l.length + 1) % l.length ≠ k := by
    rw [m]
    split
    · rw [Nat.mod_eq_of_lt (by omega)]; omega
    · by_cases hk2 : k + 1 + 1 = l.length
      · rw [hk2, Nat.mod_self]; omega
      · rw [Nat.mod_eq_of_lt (by omega)]; omega
  refine F.fat _ (Nat.mod_lt _ h) _ hk ?_ (Ne.symm m')
  rw [m]
  split <;> omega

theorem corner_nonneg (i j : Nat) (hi : i < l.length) (hj : j < l.length) : 0 ≤ sideOr h σ j (corner l h i) := by
  by_cases h1 : j = i
  · subst h1
    rw [← prevCorner_succ, (F.side_self j).2]
  by_cases h2 : j = (i + 1) % l.length
  · have e : prevCorner h j = corner l h i := by
      subst h2
      rw [← prevCorner_succ]
      rcases Nat.lt_or_ge (i + 1) l.length with h3 | h3
      · rw [Nat.mod_eq_of_lt h3]
      · have h4 : i + 1 = l.length := by omega
        rw [h4, Nat.mod_self, ← prevCorner_period h 0, Nat.zero_add]
    rw [← e, (F.side_self j).1]
  · have h3 := F.fat i hi j hj h1 h2
    have h4 := mul_pos F.D_pos F.D_pos
    have h5 := F.kappa
    by_contra hc
    have := mul_neg_of_pos_of_neg (show 0 < κ by linarith) (not_le.1 hc)
    linarith

theorem sideOr_reduce (k : Nat) (q : Pt ℚ) : sideOr h σ k q = sideOr h σ (k % l.length) q := by
  have e : ∀ m, sideOr h σ (k % l.length + l.length * m) q = sideOr h σ (k % l.length) q := by
    intro m
    induction m with
    | zero => rfl
    | succ m ih => rw [Nat.mul_succ, ← Nat.add_assoc, sideOr_period, ih]
  conv_lhs => rw [← Nat.mod_add_div k l.length]
  exact e _

theorem fatSides : FatSides h σ (D * D / κ) where
  nonneg := by
    intro i j
    rw [F.sideOr_reduce]
    have e : corner l h i = corner l h (i % l.length) := by unfold corner; simp
    rw [e]
    exact F.corner_nonneg _ _ (Nat.mod_lt _ h) (Nat.mod_lt _ h)
  far := by
    intro i hi j hj h1 h2
    have hκ : 0 < κ := lt_of_lt_of_le one_pos F.kappa
    rw [div_le_iff₀' hκ]
    exact F.fat i hi j hj h1 h2

/-- The longest extent of a side. -/
theorem side_long {k : Nat} (hk : k < l.length) : D ≤ 2 * κ * max |(prevCorner h (k + 1)).x - (prevCorner h k).x|
    |(prevCorner h (k + 1)).y - (prevCorner h k).y| := by
  have h1 := F.next_far hk
  set L := max |(prevCorner h (k + 1)).x - (prevCorner h k).x| |(prevCorner h (k + 1)).y - (prevCorner h k).y| with hL
  obtain ⟨d1, d2⟩ := F.prev_near (k + 2) k
  have h2 : |sideOr h σ k (prevCorner h (k + 2))| ≤ 2 * D * L := by
    unfold sideOr orient
    rw [abs_mul, abs_sign F.sign, one_mul]
    have hD := F.D_pos
    calc _ ≤ |((prevCorner h (k + 1)).x - (prevCorner h k).x) * ((prevCorner h (k + 2)).y - (prevCorner h k).y)| +
          |((prevCorner h (k + 1)).y - (prevCorner h k).y) * ((prevCorner h (k + 2)).x - (prevCorner h k).x)| := abs_sub _ _
      _ ≤ L * D + L * D := by
          rw [abs_mul, abs_mul]
          have hL0 : 0 ≤ L := (abs_nonneg _).trans (le_max_left _ _)
          exact add_le_add (mul_le_mul (le_max_left _ _) d2 (abs_nonneg _) hL0)
            (mul_le_mul (le_max_right _ _) d1 (abs_nonneg _) hL0)
      _ = _ := by ring
  have h3 := (abs_le.1 h2).2
  have hκ : 0 < κ := lt_of_lt_of_le one_pos F.kappa
  have h4 := mul_le_mul_of_nonneg_left h3 hκ.le
  have h5 : D * D ≤ (2 * κ * L) * D := by linarith
  exact le_of_mul_le_mul_right h5 F.D_pos

theorem D_le : D ≤ 2 ^ 112 := by
  have h3 := F.three
  have h1 := F.next_far (k := 0) (by omega)
  have b : ∀ i, |(prevCorner h i).x| ≤ 2 ^ 100 ∧ |(prevCorner h i).y| ≤ 2 ^ 100 := by
    intro i
    unfold prevCorner
    exact ⟨(F.bnd _).1.trans F.M_le, (F.bnd _).2.trans F.M_le⟩
  have h2 : |sideOr h σ 0 (prevCorner h 2)| ≤ 2 ^ 203 := by
    unfold sideOr orient
    rw [abs_mul, abs_sign F.sign, one_mul]
    exact abs_sub_le_pow (abs_mul_le_pow (abs_sub_le_pow (b _).1 (b _).1) (abs_sub_le_pow (b _).2 (b _).2))
      (abs_mul_le_pow (abs_sub_le_pow (b _).2 (b _).2) (abs_sub_le_pow (b _).1 (b _).1))
  have h4 := (abs_le.1 h2).2
  have h5 : κ * sideOr h σ 0 (prevCorner h 2) ≤ 2 ^ 20 * 2 ^ 203 := by
    have hκ : 0 < κ := lt_of_lt_of_le one_pos F.kappa
    calc κ * sideOr h σ 0 (prevCorner h 2) ≤ κ * 2 ^ 203 := mul_le_mul_of_nonneg_left h4 hκ.le
      _ ≤ _ := mul_le_mul_of_nonneg_right F.κ_le (by positivity)
  by_contra hc
  have h6 : (2 : ℚ) ^ 112 * 2 ^ 112 < D * D := mul_lt_mul'' (not_le.1 hc) (not_le.1 hc) (by positivity) (by positivity)
  rw [← pow_add] at h5 h6
  have h7 : (2 : ℚ) ^ (20 + 203) ≤ 2 ^ (112 + 112) := pow_le_pow_right₀ (by norm_num) (by norm_num)
  have h8 : κ * sideOr h σ 0 (prevCorner h (0 + 2)) = κ * sideOr h σ 0 (prevCorner h 2) := rfl
  linarith

end FatStored

/-! ## The computed areas -/

/-- The computed area of side `k` and a point. -/
def areaF (h : 0 < l.length) (p : Pt ℚ) (k : Nat) : ℚ :=
  |crossR ((prevCorner h (k + 1)).x - (prevCorner h k).x) ((prevCorner h (k + 1)).y - (prevCorner h k).y)
    (p.x - (prevCorner h k).x) (p.y - (prevCorner h k).y)|

/-- The computed squared length of side `k`. -/
def lenF (h : 0 < l.length) (k : Nat) : ℚ :=
  lsqR ((prevCorner h (k + 1)).x - (prevCorner h k).x) ((prevCorner h (k + 1)).y - (prevCorner h k).y)

/-- The test for a point on side `k`, as computed. -/
def nearSideF (h : 0 < l.length) (tol : ℚ) (p : Pt ℚ) (k : Nat) : Prop :=
  rq (areaF h p k * areaF h p k) < rq (rq (tol * lenF h k) * tol)

theorem areaF_period (p : Pt ℚ) (k : Nat) : areaF h p (k + l.length) = areaF h p k := by
  unfold areaF
  rw [prevCorner_period, show k + l.length + 1 = (k + 1) + l.length from by omega, prevCorner_period]

/-- The extent of side `k`. -/
def extent (h : 0 < l.length) (k : Nat) : ℚ :=
  max |(prevCorner h (k + 1)).x - (prevCorner h k).x| |(prevCorner h (k + 1)).y - (prevCorner h k).y|

theorem lenF_bounds {k : Nat} (hL : 1 / 2 ^ 160 ≤ extent h k) :
    96 / 100 * (extent h k * extent h k) ≤ lenF h k ∧ lenF h k ≤ 2085 / 1000 * (extent h k * extent h k) := by
  unfold lenF
  refine ⟨?_, lsqR_upper hL (le_max_left _ _) (le_max_right _ _)⟩
  unfold extent at hL ⊢
  rcases max_cases |(prevCorner h (k + 1)).x - (prevCorner h k).x| |(prevCorner h (k + 1)).y - (prevCorner h k).y| with ⟨e, -⟩ | ⟨e, -⟩
  · exact lsqR_lower hL e
  · rw [← lsqR_swap]
    exact lsqR_lower hL e

theorem near_right {k : Nat} (hL' : 1 / 2 ^ 160 ≤ extent h k) (ht : 1 / 2 ^ 160 ≤ tol) :
    94 / 100 * (tol * extent h k * (tol * extent h k)) ≤ rq (rq (tol * lenF h k) * tol) ∧
      rq (rq (tol * lenF h k) * tol) ≤ 216 / 100 * (tol * extent h k * (tol * extent h k)) := by
  obtain ⟨h1, h2⟩ := lenF_bounds hL'
  set L := extent h k with hLd
  have ht0 : 0 < tol := lt_of_lt_of_le (by positivity) ht
  have hL0 : 0 < L := lt_of_lt_of_le (by positivity) hL'
  have hLL := inv_pow_mul hL' hL'
  have htLL := inv_pow_mul ht hLL
  have hp : 0 < tol * (L * L) := by positivity
  have hp' : 0 < tol * (L * L) * tol := by positivity
  have e : tol * L * (tol * L) = tol * (L * L) * tol := by ring
  rw [e]
  constructor
  · have b1 : 96 / 100 * (tol * (L * L)) ≤ tol * lenF h k := by nlinarith
    have b2 := rq_lower (by norm_num) (scale_le htLL (show (1 : ℚ) / 2 ≤ 96 / 100 by norm_num)) b1
    have b3 : 95 / 100 * (tol * (L * L) * tol) ≤ rq (tol * lenF h k) * tol := by
      have : 95 / 100 * (tol * (L * L)) ≤ rq (tol * lenF h k) := by linarith
      have := mul_le_mul_of_nonneg_right this ht0.le
      linarith
    have b4 := rq_lower (by norm_num) (scale_le (inv_pow_mul htLL ht) (show (1 : ℚ) / 2 ≤ 95 / 100 by norm_num)) b3
    linarith
  · have b1 : tol * lenF h k ≤ 2085 / 1000 * (tol * (L * L)) := by nlinarith
    have b2 := rq_upper (by norm_num) (scale_le htLL (show (1 : ℚ) / 2 ≤ 2085 / 1000 by norm_num)) b1
    have b3 : rq (tol * lenF h k) * tol ≤ 211 / 100 * (tol * (L * L) * tol) := by
      have : rq (tol * lenF h k) ≤ 211 / 100 * (tol * (L * L)) := by linarith
      have := mul_le_mul_of_nonneg_right this ht0.le
      linarith
    have b4 := rq_upper (by norm_num) (scale_le (inv_pow_mul htLL ht) (show (1 : ℚ) / 2 ≤ 211 / 100 by norm_num)) b3
    linarith

theorem near_upper {p : Pt ℚ} {k : Nat} (hL : 1 / 2 ^ 160 ≤ extent h k) (ht : 1 / 2 ^ 160 ≤ tol)
    (hn : nearSideF h tol p k) : areaF h p k ≤ 3 / 2 * (tol * extent h k) := by
  have h1 := (near_right (h := h) hL ht).2
  set L := extent h k with hLd
  have ht0 : 0 < tol := lt_of_lt_of_le (by positivity) ht
  have hL0 : 0 < L := lt_of_lt_of_le (by positivity) hL
  by_contra hc
  have hc' := not_le.1 hc
  have htL := inv_pow_mul ht hL
  have hsq := inv_pow_mul htL htL
  have h2 : 9 / 4 * (tol * L * (tol * L)) ≤ areaF h p k * areaF h p k := by
    have := mul_le_mul hc'.le hc'.le (by positivity) (by linarith [mul_pos ht0 hL0])
    linarith
  have h3 := rq_lower (by norm_num) (scale_le hsq (show (1 : ℚ) / 2 ≤ 9 / 4 by norm_num)) h2
  unfold nearSideF at hn
  have : 0 < tol * L * (tol * L) := by positivity
  linarith

theorem near_lower {p : Pt ℚ} {k : Nat} (hL : 1 / 2 ^ 160 ≤ extent h k) (ht : 1 / 2 ^ 160 ≤ tol)
    (hn : ¬ nearSideF h tol p k) : 1 / 2 * (tol * extent h k) ≤ areaF h p k := by
  have h1 := (near_right (h := h) hL ht).1
  set L := extent h k with hLd
  have ht0 : 0 < tol := lt_of_lt_of_le (by positivity) ht
  have hL0 : 0 < L := lt_of_lt_of_le (by positivity) hL
  by_contra hc
  have hc' := not_le.1 hc
  have htL := inv_pow_mul ht hL
  have hsq := inv_pow_mul htL htL
  have h0 : 0 ≤ areaF h p k := abs_nonneg _
  have h2 : areaF h p k * areaF h p k ≤ 1 / 2 * (tol * L * (tol * L)) := by
    have := mul_le_mul hc'.le hc'.le h0 (by positivity)
    have : 0 < tol * L * (tol * L) := by positivity
    linarith
  have h3 := rq_upper (by norm_num) (scale_le hsq (show (1 : ℚ) / 2 ≤ 1 / 2 by norm_num)) h2
  unfold nearSideF at hn
  have : 0 < tol * L * (tol * L) := by positivity
  exact hn (by linarith)


/-- The computed area at corner `k`. -/
def cornerF (h : 0 < l.length) (k : Nat) : ℚ := areaF h (prevCorner h (k + 2)) k

/-- The computed weight of corner `k` before normalisation. -/
def weightF (h : 0 < l.length) (p : Pt ℚ) (k : Nat) : ℚ :=
  rq (rq (2 * cornerF h k) / rq (areaF h p k * areaF h p (k + 1)))

/-- The computed sum of the weights of the corners before corner `k`. -/
def sumF (h : 0 < l.length) (p : Pt ℚ) : Nat → ℚ
  | 0 => 0
  | k + 1 => rq (sumF h p k + weightF h p k)

theorem extent_period (k : Nat) : extent h (k + l.length) = extent h k := by
  unfold extent
  rw [prevCorner_period, show k + l.length + 1 = (k + 1) + l.length from by omega, prevCorner_period]

theorem sum_step {B S W k : ℚ} (hB : 1 ≤ B) (h1 : 0 ≤ S) (h2 : S ≤ 2 * B * k) (h3 : 0 ≤ W) (h4 : W ≤ B) (hk : 0 ≤ k)
    (hk' : k + 1 ≤ 2 ^ 20) : rq (S + W) ≤ 2 * B * (k + 1) := by
  have hBk : 0 ≤ B * k := mul_nonneg (by linarith) hk
  have hb : |S + W| ≤ 2 * B * k + B := by
    rw [abs_of_nonneg (by linarith)]
    linarith
  have h5 := rq_abs hb (by
    have g4 : (1 : ℚ) / 2 ^ 1000 ≤ 1 / 2 ^ 0 := inv_pow_le (by norm_num)
    rw [pow_zero, div_one] at g4
    generalize (1 : ℚ) / 2 ^ 1000 = z at *
    linarith)
  have hu := u_pos
  have h6 : u * (2 * B * k + B) ≤ B := by
    have g : u * (2 * k + 1) ≤ 1 := by
      have := mul_le_mul_of_nonneg_left hk' (show 0 ≤ u * 2 by linarith)
      have h' : u * 2 * 2 ^ 20 ≤ 1 := by unfold u; norm_num
      linarith
    have := mul_le_mul_of_nonneg_right g (show 0 ≤ B by linarith)
    linarith
  have h7 := (abs_le.1 h5).2
  linarith

namespace FatStored
variable (F : FatStored M D κ tol h σ)
include F

theorem extent_long {k : Nat} (hk : k ≤ l.length) : D ≤ 2 * κ * extent h k := by
  rcases hk.lt_or_eq with h1 | h1
  · exact F.side_long h1
  · rw [show extent h k = extent h 0 from by rw [h1, ← extent_period 0, Nat.zero_add]]
    exact F.side_long h

theorem extent_ge {k : Nat} (hk : k ≤ l.length) : tol ≤ extent h k := by
  have h1 := F.extent_long hk
  have h2 := F.tol_le
  have h3 := F.kappa
  have h4 := F.n_ge
  have h5 : κ * κ ≤ (l.length * κ) ^ 2 := by
    have : 1 * κ ≤ l.length * κ := mul_le_mul_of_nonneg_right (by linarith) (by linarith)
    rw [sq]
    exact mul_le_mul (by linarith) (by linarith) (by linarith) (by linarith)
  have h6 := mul_le_mul_of_nonneg_right h5 F.tol_pos.le
  have h7 : (2 * κ) * (128 * κ * tol) ≤ (2 * κ) * extent h k := by linarith
  have h8 := le_of_mul_le_mul_left h7 (by linarith)
  have h9 : 1 * tol ≤ κ * tol := mul_le_mul_of_nonneg_right h3 F.tol_pos.le
  have := F.tol_pos
  linarith

theorem extent_small {k : Nat} (hk : k ≤ l.length) : 1 / 2 ^ 160 ≤ extent h k := F.tol_ge.trans (F.extent_ge hk)

theorem bnd_prev (k : Nat) : Bnd (2 ^ 100) (prevCorner h k) := by unfold prevCorner; exact (F.bnd _).mono F.M_le

theorem bnd_prev' (k : Nat) : Bnd (2 ^ 200) (prevCorner h k) :=
  (F.bnd_prev k).mono (pow_le_pow_right₀ (by norm_num) (by norm_num))

theorem cornerF_le (k : Nat) : cornerF h k ≤ 2 ^ 203 := by
  unfold cornerF areaF crossR
  have d : ∀ i j, |rq ((prevCorner h i).x - (prevCorner h j).x)| ≤ 2 ^ 101 ∧ |rq ((prevCorner h i).y - (prevCorner h j).y)| ≤ 2 ^ 101 :=
    fun i j => ⟨abs_rq_le (abs_sub_le_pow (F.bnd_prev i).1 (F.bnd_prev j).1), abs_rq_le (abs_sub_le_pow (F.bnd_prev i).2 (F.bnd_prev j).2)⟩
  exact abs_rq_le (abs_sub_le_pow (abs_rq_le (abs_mul_le_pow (d _ _).1 (d _ _).2)) (abs_rq_le (abs_mul_le_pow (d _ _).2 (d _ _).1)))

theorem area_ge {p : Pt ℚ} {k : Nat} (hk : k ≤ l.length) (hn : ¬ nearSideF h tol p k) : 1 / 2 ^ 321 ≤ areaF h p k := by
  have h1 := near_lower (F.extent_small hk) F.tol_ge hn
  have h2 := inv_pow_mul F.tol_ge (F.extent_small hk)
  exact (half_le h2).trans h1

theorem prod_ge {p : Pt ℚ} {k : Nat} (hk : k < l.length) (hn : ∀ i ≤ k + 1, ¬ nearSideF h tol p i) :
    1 / 2 ^ (321 + 321) ≤ areaF h p k * areaF h p (k + 1) :=
  inv_pow_mul (i := 321) (j := 321) (F.area_ge hk.le (hn k (by omega))) (F.area_ge hk (hn (k + 1) le_rfl))

theorem weight_abs {p : Pt ℚ} {k : Nat} (hk : k < l.length) (hn : ∀ i ≤ k + 1, ¬ nearSideF h tol p i) :
    0 < rq (areaF h p k * areaF h p (k + 1)) ∧ |rq (2 * cornerF h k) / rq (areaF h p k * areaF h p (k + 1))| ≤ 2 ^ 846 := by
  have h1 := F.prod_ge hk hn
  have h0 : 0 ≤ areaF h p k * areaF h p (k + 1) := le_trans (by positivity) h1
  have h2 := le_abs_rq (k := 321 + 321) (by norm_num) (h1.trans (le_abs_self _))
  rw [abs_of_nonneg (rq_nonneg h0)] at h2
  have hpos : 0 < rq (areaF h p k * areaF h p (k + 1)) := lt_of_lt_of_le (by positivity) h2
  refine ⟨hpos, ?_⟩
  have c0 : 0 ≤ cornerF h k := abs_nonneg _
  have h3 : |2 * cornerF h k| ≤ 2 ^ (1 + 203) := abs_mul_le_pow (by norm_num) (by rw [abs_of_nonneg c0]; exact F.cornerF_le k)
  have h4 := abs_rq_le h3
  rw [abs_div, abs_of_pos hpos, div_le_iff₀ hpos]
  have h5 : (2 : ℚ) ^ 846 * (1 / 2 ^ (321 + 321)) ≤ 2 ^ 846 * rq (areaF h p k * areaF h p (k + 1)) := mul_le_mul_of_nonneg_left h2 (by positivity)
  have h6 : (2 : ℚ) ^ 846 * (1 / 2 ^ (321 + 321)) = 2 ^ (1 + 203) := by
    rw [show (846 : ℕ) = (1 + 203) + (321 + 321) from rfl, pow_add, mul_assoc, mul_one_div_cancel (by positivity), mul_one]
  rw [h6] at h5
  exact h4.trans h5

theorem weight_nonneg (p : Pt ℚ) (k : Nat) : 0 ≤ weightF h p k := by
  have c0 : 0 ≤ cornerF h k := abs_nonneg _
  exact rq_nonneg (div_nonneg (rq_nonneg (by linarith)) (rq_nonneg (mul_nonneg (abs_nonneg _) (abs_nonneg _))))

theorem sum_bound {p : Pt ℚ} {k : Nat} (hk : k ≤ l.length) (hn : ∀ i ≤ k, ¬ nearSideF h tol p i) :
    0 ≤ sumF h p k ∧ sumF h p k ≤ 2 * 2 ^ 846 * k := by
  induction k with
  | zero => simp [sumF]
  | succ k ih =>
    obtain ⟨h1, h2⟩ := ih (by omega) (fun i hi => hn i (by omega))
    have h3 := abs_rq_le (F.weight_abs (by omega) hn).2
    change |weightF h p k| ≤ _ at h3
    rw [abs_of_nonneg (F.weight_nonneg p k)] at h3
    have h4 := F.weight_nonneg p k
    have hk' : ((k + 1 : ℕ) : ℚ) ≤ 2 ^ 20 := le_trans (by exact_mod_cast hk) F.n_le
    push_cast at hk' ⊢
    refine ⟨rq_nonneg (add_nonneg h1 h4), sum_step (one_le_pow₀ (by norm_num)) h1 h2 h4 h3 (Nat.cast_nonneg k) hk'⟩

/-- The numbers of the run. -/
theorem run {p : Pt ℚ} (hp : Bnd (2 ^ 200) p) (ht : tol ≤ 2 ^ 200) : WRun (l.map fp) (fp p) (fin tol) (fun k => fp (prevCorner h k))
    (fun k => fin (areaF h p k)) (fun k => fin (weightF h p k)) (fun k => fin (sumF h p k)) (nearSideF h tol p) where
  first := by
    have hne : l.map fp ≠ [] := by
      intro hc
      rw [List.map_eq_nil_iff] at hc
      subst hc
      exact absurd h (by simp)
    rw [rdI_last hne]
    unfold prevCorner corner
    congr 1
    rw [List.getLast_eq_getElem, List.getElem_map]
    congr 2
    rw [List.length_map, Nat.mod_eq_of_lt (by omega)]
    omega
  next := by
    intro k
    have h' : 0 < (l.map fp).length := by rw [List.length_map]; exact h
    rw [rd_corner h', prevCorner_succ]
    unfold corner
    rw [List.getElem_map]
    simp only [List.length_map]
  area := by
    intro k _
    rw [(cross_fl (F.bnd_prev' k) (F.bnd_prev' (k + 1)) hp).1, fabs_fin]
    rfl
  test := by
    intro k _
    have c := (cross_fl (F.bnd_prev' k) (F.bnd_prev' (k + 1)) hp).2
    have c' : |areaF h p k| ≤ 2 ^ 403 := by
      unfold areaF; rw [abs_abs]; exact c
    have ht' : |tol| ≤ 2 ^ 200 := by rw [abs_of_pos F.tol_pos]; exact ht
    unfold withinPerpendicularDistance lengthSquared toVector fp
    simp only [decide_eq_true_eq]
    have w1 := abs_sub_le_pow (F.bnd_prev' (k + 1)).1 (F.bnd_prev' k).1
    have w2 := abs_sub_le_pow (F.bnd_prev' (k + 1)).2 (F.bnd_prev' k).2
    rw [sub_fin (by norm_num) w1, sub_fin (by norm_num) w2]
    have w1 := abs_rq_le w1
    have w2 := abs_rq_le w2
    have m3 := abs_mul_le_pow w1 w1
    have m4 := abs_mul_le_pow w2 w2
    rw [mul_fin (by norm_num) m3, mul_fin (by norm_num) m4]
    have m3 := abs_rq_le m3
    have m4 := abs_rq_le m4
    have q := abs_add_le_pow m3 m4
    rw [add_fin (by norm_num) q]
    have q := abs_rq_le q
    have cc := abs_mul_le_pow c' c'
    have tq := abs_mul_le_pow ht' q
    rw [mul_fin (by norm_num) cc, mul_fin (by norm_num) tq]
    have tq := abs_rq_le tq
    have tqt := abs_mul_le_pow tq ht'
    rw [mul_fin (by norm_num) tqt, lt_fin]
    rfl
  weight := by
    intro k hk hn
    rw [List.length_map] at hk
    have c' : |areaF h p k| ≤ 2 ^ 403 := by
      unfold areaF; rw [abs_abs]; exact (cross_fl (F.bnd_prev' k) (F.bnd_prev' (k + 1)) hp).2
    have c'' : |areaF h p (k + 1)| ≤ 2 ^ 403 := by
      unfold areaF; rw [abs_abs]; exact (cross_fl (F.bnd_prev' (k + 1)) (F.bnd_prev' (k + 2)) hp).2
    have cc := abs_mul_le_pow c' c''
    obtain ⟨g1, g2⟩ := F.weight_abs hk hn
    have e2 : (1 + 1 : Fl) = fin 2 := by decide +kernel
    have c0 : 0 ≤ cornerF h k := abs_nonneg _
    have h3 : |2 * cornerF h k| ≤ 2 ^ (1 + 203) := abs_mul_le_pow (by norm_num) (by rw [abs_of_nonneg c0]; exact F.cornerF_le k)
    rw [(cross_fl (F.bnd_prev' k) (F.bnd_prev' (k + 1)) (F.bnd_prev' (k + 2))).1, fabs_fin, e2]
    change fdiv (fin 2 * fin (cornerF h k)) _ = _
    rw [mul_fin (by norm_num) h3, mul_fin (by norm_num) cc, fdiv_fin g1.ne' (by norm_num) g2]
    rfl
  start := rfl
  sum := by
    intro k hk hn
    rw [List.length_map] at hk
    obtain ⟨h1, h2⟩ := F.sum_bound (p := p) hk.le (fun i hi => hn i (by omega))
    have h3 := abs_rq_le (F.weight_abs hk hn).2
    change |weightF h p k| ≤ _ at h3
    have hk' : (k : ℚ) ≤ 2 ^ 20 := le_trans (by exact_mod_cast hk.le) F.n_le
    have h4 : |sumF h p k| ≤ 2 ^ 900 := by
      rw [abs_of_nonneg h1]
      refine h2.trans ((mul_le_mul_of_nonneg_left hk' (by positivity)).trans ?_)
      rw [mul_comm 2, ← pow_succ, ← pow_add]
      exact pow_le_pow_right₀ (by norm_num) (by norm_num)
    rw [add_fin (k := 901) (by norm_num) (abs_add_le_pow h4 (abs_le_pow_mono (by norm_num) h3))]
    rfl

end FatStored

/-! ## A point that is not near a side -/

/-- The point `p` is close to the point `q` of the polygon. -/
structure CloseTo (h : 0 < l.length) (σ D tol : ℚ) (p q : Pt ℚ) : Prop where
  inside : ∀ k, 0 ≤ sideOr h σ k q
  dx : |p.x - q.x| ≤ 2 * tol
  dy : |p.y - q.y| ≤ 2 * tol
  corner : ∀ k, |(Celltree.corner l h k).x - q.x| ≤ D ∧ |(Celltree.corner l h k).y - q.y| ≤ D

theorem abs_sideOr (hσ : σ * σ = 1) (k : Nat) (p : Pt ℚ) :
    |sideOr h σ k p| = |orient (prevCorner h k) (prevCorner h (k + 1)) p| := by
  unfold sideOr
  rw [abs_mul, abs_sign hσ, one_mul]

namespace FatStored
variable (F : FatStored M D κ tol h σ) {p q : Pt ℚ} (C : CloseTo h σ D tol p q)
include F

theorem area_gen {p : Pt ℚ} {R : ℚ} (k : Nat) (hR : D ≤ R) (h1 : |p.x - (prevCorner h k).x| ≤ R) (h2 : |p.y - (prevCorner h k).y| ≤ R) :
    |areaF h p k - (|sideOr h σ k p|)| ≤ 9 * u * (R * R) := by
  have hR0 : 1 / 2 ^ 500 ≤ R := (inv_pow_le (by norm_num)).trans (F.D_ge.trans hR)
  obtain ⟨d1, d2⟩ := F.prev_near (k + 1) k
  have e := cross_err (d1.trans hR) h1 (d2.trans hR) h2 hR0 hR0
  unfold areaF
  rw [abs_sideOr F.sign]
  exact (abs_abs_sub_abs_le_abs_sub _ _).trans e

include C

theorem area_err (k : Nat) : |areaF h p k - (|sideOr h σ k p|)| ≤ tol * D := by
  have hD := F.D_pos
  have ht := F.tol_small
  have c : |q.x - (prevCorner h k).x| ≤ D ∧ |q.y - (prevCorner h k).y| ≤ D := by
    rw [abs_sub_comm, abs_sub_comm q.y]; unfold prevCorner; exact C.corner _
  have h1 : |p.x - (prevCorner h k).x| ≤ 2 * D := by
    have := abs_sub_le p.x q.x (prevCorner h k).x
    linarith [C.dx, c.1, F.tol_pos]
  have h2 : |p.y - (prevCorner h k).y| ≤ 2 * D := by
    have := abs_sub_le p.y q.y (prevCorner h k).y
    linarith [C.dy, c.2, F.tol_pos]
  refine (F.area_gen k (by linarith) h1 h2).trans ?_
  have h3 := mul_le_mul_of_nonneg_right F.tol_D hD.le
  have h4 := mul_pos u_pos (mul_pos hD hD)
  linarith

theorem area_close (k : Nat) : |areaF h p k - sideOr h σ k q| ≤ 5 * (tol * D) := by
  have h1 := F.area_err C k
  have h2 := F.side_le k C.dx C.dy
  have h3 : |(|sideOr h σ k p| - sideOr h σ k q)| ≤ 2 * D * (2 * tol) := by
    have h4 := abs_abs_sub_abs_le_abs_sub (sideOr h σ k p) (sideOr h σ k q)
    rw [abs_of_nonneg (C.inside k)] at h4
    exact h4.trans h2
  calc |areaF h p k - sideOr h σ k q| ≤ |areaF h p k - (|sideOr h σ k p|)| + |(|sideOr h σ k p| - sideOr h σ k q)| := abs_sub_le _ _ _
    _ ≤ _ := by linarith

theorem area_le (k : Nat) : areaF h p k ≤ 2 ^ 227 := by
  have h1 := (abs_le.1 (F.area_close C k)).2
  have h2 : |sideOr h σ k q - sideOr h σ k (prevCorner h k)| ≤ 2 * D * D := by
    refine F.side_le k ?_ ?_
    · rw [abs_sub_comm]; unfold prevCorner; exact (C.corner _).1
    · rw [abs_sub_comm]; unfold prevCorner; exact (C.corner _).2
  rw [(F.side_self k).1, sub_zero] at h2
  have h3 := (abs_le.1 h2).2
  have h4 := mul_le_mul_of_nonneg_right F.tol_small F.D_pos.le
  have h5 := mul_le_mul F.D_le F.D_le F.D_pos.le (by positivity)
  rw [← pow_add] at h5
  have h6 : (2 : ℚ) ^ 227 = 8 * 2 ^ (112 + 112) := by norm_num
  have h7 := mul_pos F.D_pos F.D_pos
  rw [h6]
  linarith

omit C

theorem corner_err {k : Nat} (hk : k < l.length) : |cornerF h k - sideOr h σ k (prevCorner h (k + 2))| ≤
    9 * u * κ * sideOr h σ k (prevCorner h (k + 2)) := by
  obtain ⟨d1, d2⟩ := F.prev_near (k + 2) k
  have h1 := F.area_gen k le_rfl d1 d2
  have h2 := F.next_far hk
  have hκ : 0 < κ := lt_of_lt_of_le one_pos F.kappa
  have hpos : 0 ≤ sideOr h σ k (prevCorner h (k + 2)) := by
    by_contra hc
    have := mul_neg_of_pos_of_neg hκ (not_le.1 hc)
    have := mul_pos F.D_pos F.D_pos
    linarith
  rw [abs_of_nonneg hpos] at h1
  refine h1.trans ?_
  have := mul_le_mul_of_nonneg_left h2 (show 0 ≤ 9 * u by linarith [u_pos])
  linarith

end FatStored

/-- A weight is computed with a small relative error. -/
theorem weight_rel {C c P d : ℚ} (hC : 0 < C) (hP : 0 < P) (hP' : 1 / 2 ^ 1000 ≤ P) (hc : |c - C| ≤ d * C) (hd : d ≤ 1 / 2)
    (hc' : 1 / 2 ^ 1000 ≤ c) (hQ : 1 / 2 ^ 1000 ≤ rq (2 * c) / rq P) :
    ∃ g, rq (rq (2 * c) / rq P) = 2 * (C * g) / P ∧ |g - 1| ≤ 2 * d + 8 * u := by
  have hu := u_pos
  have hu' := u_le
  have hc0 : 0 < c := lt_of_lt_of_le (by positivity) hc'
  have hd0 : 0 ≤ d := by
    by_contra h
    have := mul_neg_of_neg_of_pos (not_le.1 h) hC
    linarith [abs_nonneg (c - C)]
  have a1 : |rq (2 * c) - 2 * c| ≤ u * (2 * c) := by
    have := rq_rel (x := 2 * c) (by rw [abs_of_pos (by linarith)]; linarith)
    rwa [abs_of_pos (show 0 < 2 * c by linarith)] at this
  have a2 : |rq P - P| ≤ u * P := by
    have := rq_rel (x := P) (by rw [abs_of_pos hP]; exact hP')
    rwa [abs_of_pos hP] at this
  obtain ⟨a1l, a1u⟩ := abs_le.1 a1
  obtain ⟨a2l, a2u⟩ := abs_le.1 a2
  have hP1 : 0 < rq P := by nlinarith
  set Q := rq (2 * c) / rq P with hQd
  have hQ0 : 0 < Q := lt_of_lt_of_le (by positivity) hQ
  have a3 : |rq Q - Q| ≤ u * Q := by
    have := rq_rel (x := Q) (by rw [abs_of_pos hQ0]; exact hQ)
    rwa [abs_of_pos hQ0] at this
  obtain ⟨a3l, a3u⟩ := abs_le.1 a3
  obtain ⟨cl, cu⟩ := abs_le.1 hc
  have eQ : Q * rq P = rq (2 * c) := by rw [hQd, div_mul_cancel₀ _ hP1.ne']
  refine ⟨rq Q * P / (2 * C), by field_simp, ?_⟩
  -- the product of the quotient and `P`
  have q1 : Q * P * (1 - u) ≤ (1 + u) * (2 * c) := by
    have : Q * (P * (1 - u)) ≤ Q * rq P := mul_le_mul_of_nonneg_left (by linarith) hQ0.le
    linarith
  have q2 : (1 - u) * (2 * c) ≤ Q * P * (1 + u) := by
    have : Q * rq P ≤ Q * (P * (1 + u)) := mul_le_mul_of_nonneg_left (by linarith) hQ0.le
    linarith
  have hQP : 0 < Q * P := mul_pos hQ0 hP
  have q3 : Q * P ≤ (1 + 5 / 2 * u) * (2 * c) := by
    have h1 : (1 + u) * (2 * c) ≤ (1 + 5 / 2 * u) * (2 * c) * (1 - u) := by
      have : 0 ≤ c * (u - 5 * u * u) := mul_nonneg hc0.le (by nlinarith)
      linarith
    exact le_of_mul_le_mul_right (q1.trans h1) (by linarith)
  have q4 : (1 - 5 / 2 * u) * (2 * c) ≤ Q * P := by
    have h1 : (1 - 5 / 2 * u) * (2 * c) * (1 + u) ≤ (1 - u) * (2 * c) := by
      have : 0 ≤ c * (u + 5 * u * u) := mul_nonneg hc0.le (by nlinarith)
      linarith
    exact le_of_mul_le_mul_right (h1.trans q2) (by linarith)
  have r1 : rq Q * P ≤ (1 + u) * (Q * P) := by
    have := mul_le_mul_of_nonneg_right (show rq Q ≤ (1 + u) * Q by linarith) hP.le
    linarith
  have r2 : (1 - u) * (Q * P) ≤ rq Q * P := by
    have := mul_le_mul_of_nonneg_right (show (1 - u) * Q ≤ rq Q by linarith) hP.le
    linarith
  have r3 : rq Q * P ≤ (1 + 4 * u) * (2 * c) := by
    have h1 := mul_le_mul_of_nonneg_left q3 (show 0 ≤ 1 + u by linarith)
    have : 0 ≤ c * (u - 5 * u * u) := mul_nonneg hc0.le (by nlinarith)
    linarith
  have r4 : (1 - 4 * u) * (2 * c) ≤ rq Q * P := by
    have h1 := mul_le_mul_of_nonneg_left q4 (show 0 ≤ 1 - u by linarith)
    have : 0 ≤ c * (u + 5 * u * u) := mul_nonneg hc0.le (by nlinarith)
    linarith
  have hdC : 0 ≤ d * C := mul_nonneg hd0 hC.le
  have huC : 0 ≤ u * C := mul_nonneg hu.le hC.le
  have hdu0 : 0 ≤ d * (u * C) := mul_nonneg hd0 huC
  have hdu : d * (u * C) ≤ 1 / 2 * (u * C) := mul_le_mul_of_nonneg_right hd huC
  rw [abs_le]
  constructor
  · rw [neg_le_sub_iff_le_add, ← sub_le_iff_le_add, le_div_iff₀ (by linarith)]
    have h1 := mul_le_mul_of_nonneg_left (show (1 - d) * C ≤ c by linarith) (show 0 ≤ 1 - 4 * u by linarith)
    linarith
  · rw [sub_le_iff_le_add, div_le_iff₀ (by linarith)]
    have h1 := mul_le_mul_of_nonneg_left (show c ≤ (1 + d) * C by linarith) (show 0 ≤ 1 + 4 * u by linarith)
    linarith

namespace FatStored
variable (F : FatStored M D κ tol h σ) {p q : Pt ℚ} (C : CloseTo h σ D tol p q)
include F

theorem κ_pos : 0 < κ := lt_of_lt_of_le one_pos F.kappa

theorem corner_pos {k : Nat} (hk : k < l.length) : 1 / 2 ^ 340 ≤ sideOr h σ k (prevCorner h (k + 2)) := by
  have h1 := F.next_far hk
  have h2 := inv_pow_mul F.D_ge F.D_ge
  have h3 : 0 < sideOr h σ k (prevCorner h (k + 2)) := by
    by_contra hc
    have := mul_nonpos_of_nonneg_of_nonpos F.κ_pos.le (not_lt.1 hc)
    have := mul_pos F.D_pos F.D_pos
    linarith
  have h4 := mul_le_mul_of_nonneg_right F.κ_le h3.le
  have h5 : 1 / 2 ^ (160 + 160) ≤ 2 ^ 20 * sideOr h σ k (prevCorner h (k + 2)) := h2.trans (h1.trans h4)
  have e : (1 : ℚ) / 2 ^ 340 = 1 / 2 ^ (160 + 160) / 2 ^ 20 := by
    rw [show (340 : ℕ) = (160 + 160) + 20 from rfl, pow_add, ← div_div]
  rw [e, div_le_iff₀ (by positivity), mul_comm]
  exact h5

theorem uκ_le : 9 * u * κ ≤ 1 / 1000000 := by
  have h1 := mul_le_mul_of_nonneg_left F.κ_le (show 0 ≤ 9 * u by linarith [u_pos])
  have h2 : 9 * u * 2 ^ 20 ≤ 1 / 1000000 := by unfold u; norm_num
  linarith

theorem cornerF_ge {k : Nat} (hk : k < l.length) : 1 / 2 ^ 341 ≤ cornerF h k := by
  have h1 := (abs_le.1 (F.corner_err hk)).1
  have h2 := F.corner_pos hk
  have h0 : 0 < sideOr h σ k (prevCorner h (k + 2)) := lt_of_lt_of_le (by positivity) h2
  have h3 := mul_le_mul_of_nonneg_right F.uκ_le h0.le
  have h4 := half_le h2
  exact h4.trans (by linarith)

include C

theorem weight_ge {k : Nat} (hk : k < l.length) (hn : ∀ i ≤ k + 1, ¬ nearSideF h tol p i) :
    1 / 2 ^ 800 ≤ rq (2 * cornerF h k) / rq (areaF h p k * areaF h p (k + 1)) := by
  obtain ⟨h1, -⟩ := F.weight_abs hk hn
  have h2 := F.cornerF_ge hk
  have h0 : 0 < cornerF h k := lt_of_lt_of_le (by positivity) h2
  have h3 : 1 / 2 ^ 341 ≤ |2 * cornerF h k| := by
    rw [abs_of_pos (by linarith)]; linarith
  have h4 := le_abs_rq (by norm_num) h3
  rw [abs_of_nonneg (rq_nonneg (by linarith))] at h4
  have a : ∀ i, |areaF h p i| ≤ 2 ^ 227 := fun i => by
    have ha : 0 ≤ areaF h p i := abs_nonneg _
    rw [abs_of_nonneg ha]; exact F.area_le C i
  have h5 := abs_rq_le (abs_mul_le_pow (a k) (a (k + 1)))
  rw [abs_of_pos h1] at h5
  rw [le_div_iff₀ h1]
  refine le_trans ?_ h4
  refine (mul_le_mul_of_nonneg_left h5 (by positivity)).trans ?_
  have e : (1 : ℚ) / 2 ^ 800 * 2 ^ (227 + 227) = 1 / 2 ^ 346 := by
    rw [show (800 : ℕ) = 346 + (227 + 227) from rfl, pow_add, ← div_div]
    rw [div_mul_cancel₀ _ (by positivity)]
  rw [e]
  exact inv_pow_le (by norm_num)

theorem weight_pos {k : Nat} (hk : k < l.length) (hn : ∀ i ≤ k + 1, ¬ nearSideF h tol p i) : 1 / 2 ^ 800 ≤ weightF h p k := by
  have h1 := F.weight_ge C hk hn
  have h0 : 0 < rq (2 * cornerF h k) / rq (areaF h p k * areaF h p (k + 1)) := lt_of_lt_of_le (by positivity) h1
  have h2 := le_abs_rq (k := 800) (by norm_num) (h1.trans (le_abs_self _))
  rw [abs_of_nonneg (rq_nonneg h0.le)] at h2
  exact h2

/-- The error of the weights, relative to a point `q'` that is slightly moved into the polygon. -/
theorem far_weights (hn : ∀ j ≤ l.length, ¬ nearSideF h tol p j) : ∃ q' : Pt ℚ, |q'.x - p.x| ≤ 17 * κ * tol ∧ |q'.y - p.y| ≤ 17 * κ * tol ∧
    (∀ k < l.length, |(corner l h k).x - q'.x| ≤ D ∧ |(corner l h k).y - q'.y| ≤ D) ∧
    0 < ∑ k ∈ Finset.range l.length, weightF h p k ∧
    |∑ k ∈ Finset.range l.length, weightF h p k * ((corner l h k).x - q'.x)| ≤
      164 * ((l.length * κ) ^ 2 * tol) * ∑ k ∈ Finset.range l.length, weightF h p k ∧
    |∑ k ∈ Finset.range l.length, weightF h p k * ((corner l h k).y - q'.y)| ≤
      164 * ((l.length * κ) ^ 2 * tol) * ∑ k ∈ Finset.range l.length, weightF h p k := by
  have hD := F.D_pos
  have ht := F.tol_pos
  have hκ := F.κ_pos
  have hκ1 := F.kappa
  have h3 := F.three
  have hn3 := F.n_ge
  have hu := u_pos
  -- the mean of three corners
  set c0 := corner l h 0 with hc0
  set c1 := corner l h 1 with hc1
  set c2 := corner l h 2 with hc2
  set c : Pt ℚ := ⟨(c0.x + c1.x + c2.x) / 3, (c0.y + c1.y + c2.y) / 3⟩ with hc
  set s : ℚ := 15 * κ * tol / D with hs
  have hs0 : 0 ≤ s := by positivity
  have hsD : s * D = 15 * κ * tol := by rw [hs, div_mul_cancel₀ _ hD.ne']
  set T : ℚ := (l.length * κ) ^ 2 * tol / D with hT
  have hTD : T * D = (l.length * κ) ^ 2 * tol := by rw [hT, div_mul_cancel₀ _ hD.ne']
  have hT0 : 0 ≤ T := by positivity
  have hT1 : 256 * T ≤ 1 := by
    rw [hT, ← mul_div_assoc, div_le_one hD]
    have := F.tol_le
    linarith
  have hκT : κ ^ 2 * tol / D * 9 ≤ T := by
    rw [hT, div_mul_eq_mul_div]
    refine div_le_div_of_nonneg_right ?_ hD.le
    have : (9 : ℚ) * κ ^ 2 ≤ (l.length * κ) ^ 2 := by
      rw [mul_pow]; exact mul_le_mul_of_nonneg_right (by nlinarith) (by positivity)
    nlinarith
  have hκT1 : κ * tol / D ≤ κ ^ 2 * tol / D := by
    refine div_le_div_of_nonneg_right (mul_le_mul_of_nonneg_right ?_ ht.le) hD.le
    nlinarith
  have hnT : l.length * (κ * tol / D) * 3 ≤ T := by
    rw [hT, mul_div_assoc', div_mul_eq_mul_div]
    refine div_le_div_of_nonneg_right ?_ hD.le
    have e1 : (l.length : ℚ) * (κ * tol) * 3 = (3 * 1) * (l.length * κ) * tol := by ring
    have e2 : ((l.length : ℚ) * κ) ^ 2 * tol = (l.length * κ) * (l.length * κ) * tol := by ring
    rw [e1, e2]
    refine mul_le_mul_of_nonneg_right (mul_le_mul_of_nonneg_right ?_ (by positivity)) ht.le
    exact mul_le_mul hn3 hκ1 (by norm_num) (by linarith)
  have hs1 : s ≤ 1 / 2 := by
    have : s = 15 * (κ * tol / D) := by rw [hs]; ring
    linarith
  set q' : Pt ℚ := ⟨q.x + s * (c.x - q.x), q.y + s * (c.y - q.y)⟩ with hq'
  have hlin : ∀ k, sideOr h σ k q' = (1 - s) * sideOr h σ k q + s * sideOr h σ k c := by
    intro k
    unfold sideOr orient
    rw [hq']
    ring
  have hmean : ∀ k, sideOr h σ k c = (sideOr h σ k c0 + sideOr h σ k c1 + sideOr h σ k c2) / 3 := by
    intro k
    unfold sideOr orient
    rw [hc]
    ring
  have hcq : |c.x - q.x| ≤ D ∧ |c.y - q.y| ≤ D := by
    have a0 := C.corner 0
    have a1 := C.corner 1
    have a2 := C.corner 2
    rw [← hc0] at a0; rw [← hc1] at a1; rw [← hc2] at a2
    simp only [abs_le] at a0 a1 a2 ⊢
    rw [hc]
    refine ⟨⟨?_, ?_⟩, ⟨?_, ?_⟩⟩ <;> simp only <;> linarith
  have hcc : ∀ k, |(corner l h k).x - c.x| ≤ D ∧ |(corner l h k).y - c.y| ≤ D := by
    intro k
    have a0 := F.near k 0
    have a1 := F.near k 1
    have a2 := F.near k 2
    rw [← hc0] at a0; rw [← hc1] at a1; rw [← hc2] at a2
    simp only [abs_le] at a0 a1 a2 ⊢
    rw [hc]
    refine ⟨⟨?_, ?_⟩, ⟨?_, ?_⟩⟩ <;> simp only <;> linarith
  have hfar : ∀ k < l.length, D * D ≤ 3 * κ * sideOr h σ k c := by
    intro k hk
    rw [hmean]
    have n0 := F.corner_nonneg 0 k (by omega) hk
    have n1 := F.corner_nonneg 1 k (by omega) hk
    have n2 := F.corner_nonneg 2 k (by omega) hk
    have f0 := F.fat 0 (by omega) k hk
    have f1 := F.fat 1 (by omega) k hk
    have f2 := F.fat 2 (by omega) k hk
    rw [Nat.mod_eq_of_lt (by omega : 0 + 1 < l.length)] at f0
    rw [Nat.mod_eq_of_lt (by omega : 1 + 1 < l.length)] at f1
    have m0 := mul_nonneg hκ.le n0
    have m1 := mul_nonneg hκ.le n1
    have m2 := mul_nonneg hκ.le n2
    have e : 3 * κ * ((sideOr h σ k c0 + sideOr h σ k c1 + sideOr h σ k c2) / 3) =
      κ * sideOr h σ k c0 + κ * sideOr h σ k c1 + κ * sideOr h σ k c2 := by ring
    rw [e]
    by_cases k0 : k = 0
    · subst k0
      have := f1 (by omega) (by omega)
      linarith
    by_cases k1 : k = 1
    · subst k1
      have : 1 ≠ (2 + 1) % l.length := by
        rcases Nat.lt_or_ge (2 + 1) l.length with g | g
        · rw [Nat.mod_eq_of_lt g]; omega
        · rw [show l.length = 2 + 1 from by omega, Nat.mod_self]; omega
      have := f2 (by omega) this
      linarith
    · have := f0 k0 (by omega)
      linarith
  have hcD : ∀ k, sideOr h σ k c ≤ 2 * D * D := by
    intro k
    have := F.side_le k (q := c) (q' := prevCorner h k) (r := D)
      (by rw [abs_sub_comm]; unfold prevCorner; exact (hcc _).1) (by rw [abs_sub_comm]; unfold prevCorner; exact (hcc _).2)
    rw [(F.side_self k).1, sub_zero] at this
    exact (abs_le.1 this).2
  have hsc : ∀ k < l.length, 5 * (tol * D) ≤ s * sideOr h σ k c := by
    intro k hk
    have h1 := mul_le_mul_of_nonneg_left (hfar k hk) (show 0 ≤ 5 * (tol / D) by positivity)
    have e1 : 5 * (tol / D) * (D * D) = 5 * (tol * D) := by field_simp
    have e2 : 5 * (tol / D) * (3 * κ * sideOr h σ k c) = s * sideOr h σ k c := by rw [hs]; ring
    rwa [e1, e2] at h1
  have htD : 0 < tol * D := mul_pos ht hD
  have hApos : ∀ k < l.length, 0 < sideOr h σ k q' := by
    intro k hk
    rw [hlin]
    have h1 := mul_nonneg (show 0 ≤ 1 - s by linarith) (C.inside k)
    have h2 := hsc k hk
    linarith
  have hd : 2 * (9 * u * κ) + 8 * u ≤ 26 * u * κ := by nlinarith
  have hd2 : 26 * u * κ ≤ κ * tol / D := by
    rw [le_div_iff₀ hD]
    have h1 := mul_le_mul_of_nonneg_left F.tol_D hκ.le
    have h2 := mul_pos (mul_pos hu hκ) hD
    linarith
  have hd3 : 26 * u * κ ≤ 1 / 80 := by
    have := F.uκ_le
    linarith
  have hmain := near_weights (h := h) (σ := σ) (q := q') (A' := areaF h p) (W := weightF h p) (e := 40 * κ * (tol * D)) (s := s)
    (d := 26 * u * κ) (D := D) (θ := 82 * T) F.sign h3 (div_pos (mul_pos hD hD) hκ) F.fatSides
    (fun k => by rw [F.sideOr_reduce]; exact hApos _ (Nat.mod_lt _ h))
    (fun k hk => lt_of_lt_of_le (by positivity) (F.area_ge hk.le (hn k hk.le)))
    (fun k hk => by
      have h1 := F.area_close C k
      rw [hlin]
      have h2 : |sideOr h σ k q - ((1 - s) * sideOr h σ k q + s * sideOr h σ k c)| ≤ s * (2 * D * D) := by
        have e : sideOr h σ k q - ((1 - s) * sideOr h σ k q + s * sideOr h σ k c) = s * (sideOr h σ k q - sideOr h σ k c) := by ring
        rw [e, abs_mul, abs_of_nonneg hs0]
        refine mul_le_mul_of_nonneg_left ?_ hs0
        refine F.side_le k ?_ ?_
        · rw [abs_sub_comm]; exact hcq.1
        · rw [abs_sub_comm]; exact hcq.2
      have e2 : s * (2 * D * D) = 30 * κ * (tol * D) := by
        have : s * (2 * D * D) = 2 * D * (s * D) := by ring
        rw [this, hsD]; ring
      rw [e2] at h2
      have h4 := abs_sub_le (areaF h p k) (sideOr h σ k q) ((1 - s) * sideOr h σ k q + s * sideOr h σ k c)
      have h5 : 5 * (tol * D) ≤ 10 * κ * (tol * D) := mul_le_mul_of_nonneg_right (by linarith) htD.le
      linarith)
    hs0
    (by
      have : 2 * ((l.length : ℚ) * s) = 30 * (l.length * (κ * tol / D)) := by rw [hs]; ring
      linarith)
    (fun k hk => by
      rw [hlin]
      have h1 := (abs_le.1 (F.area_close C k)).2
      have h2 := hsc k hk
      have h4 := mul_le_mul_of_nonneg_left (show areaF h p k ≤ sideOr h σ k q + 5 * (tol * D) by linarith) (show 0 ≤ 1 - s by linarith)
      have h5 := mul_nonneg hs0 (show 0 ≤ 5 * (tol * D) by linarith)
      linarith)
    (fun k hk => by
      have hnk : ∀ i ≤ k + 1, ¬ nearSideF h tol p i := fun i hi => hn i (by omega)
      have c1 := F.corner_pos hk
      have hP := F.prod_ge hk hnk
      have hP0 : 0 < areaF h p k * areaF h p (k + 1) := lt_of_lt_of_le (by positivity) hP
      obtain ⟨g, g1, g2⟩ := weight_rel (lt_of_lt_of_le (by positivity) c1) hP0 ((inv_pow_le (by norm_num)).trans hP) (F.corner_err hk)
        (by have := F.uκ_le; linarith) ((inv_pow_le (by norm_num)).trans (F.cornerF_ge hk))
        ((inv_pow_le (by norm_num)).trans (F.weight_ge C hk hnk))
      refine ⟨g, ?_, by linarith⟩
      have e : areaF h p ((k + 1) % l.length) = areaF h p (k + 1) := by
        rcases Nat.lt_or_ge (k + 1) l.length with g | g
        · rw [Nat.mod_eq_of_lt g]
        · have g' : k + 1 = l.length := by omega
          rw [g', Nat.mod_self, ← areaF_period p 0, Nat.zero_add]
      rw [e]
      exact g1)
    (fun k hk => by
      have a1 := C.corner k
      have a2 := hcc k
      simp only [abs_le] at a1 a2 ⊢
      obtain ⟨⟨a11, a12⟩, a13, a14⟩ := a1
      obtain ⟨⟨b11, b12⟩, b13, b14⟩ := a2
      have ex : (corner l h k).x - q'.x = (1 - s) * ((corner l h k).x - q.x) + s * ((corner l h k).x - c.x) := by rw [hq']; ring
      have ey : (corner l h k).y - q'.y = (1 - s) * ((corner l h k).y - q.y) + s * ((corner l h k).y - c.y) := by rw [hq']; ring
      rw [ex, ey]
      have hs' : 0 ≤ 1 - s := by linarith
      refine ⟨⟨?_, ?_⟩, ⟨?_, ?_⟩⟩
      · have := mul_le_mul_of_nonneg_left a11 hs'; have := mul_le_mul_of_nonneg_left b11 hs0; linarith
      · have := mul_le_mul_of_nonneg_left a12 hs'; have := mul_le_mul_of_nonneg_left b12 hs0; linarith
      · have := mul_le_mul_of_nonneg_left a13 hs'; have := mul_le_mul_of_nonneg_left b13 hs0; linarith
      · have := mul_le_mul_of_nonneg_left a14 hs'; have := mul_le_mul_of_nonneg_left b14 hs0; linarith)
    (by
      have e1 : 40 * κ * (tol * D) / (D * D / κ) = 40 * (κ ^ 2 * tol / D) := by field_simp
      rw [e1]
      have e2 : (l.length : ℚ) * (2 * l.length * (1 + 26 * u * κ) * (40 * (κ ^ 2 * tol / D)) + 26 * u * κ) =
        80 * (1 + 26 * u * κ) * T + l.length * (26 * u * κ) := by rw [hT]; ring
      rw [e2]
      have h1 := mul_le_mul_of_nonneg_left hd2 (show (0 : ℚ) ≤ l.length by linarith)
      have h2 := mul_le_mul_of_nonneg_right hd3 hT0
      linarith)
    (by linarith)
  obtain ⟨g1, g2, g3⟩ := hmain
  have e : 2 * (82 * T) * D = 164 * ((l.length * κ) ^ 2 * tol) := by rw [← hTD]; ring
  rw [e] at g2 g3
  refine ⟨q', ?_, ?_, ?_, g1, g2, g3⟩
  · have h1 : |q'.x - q.x| ≤ 15 * κ * tol := by
      rw [← hsD, show q'.x - q.x = s * (c.x - q.x) by rw [hq']; ring, abs_mul, abs_of_nonneg hs0]
      exact mul_le_mul_of_nonneg_left hcq.1 hs0
    have h2 := abs_sub_le q'.x q.x p.x
    have h4 := C.dx
    rw [abs_sub_comm] at h4
    have h5 := mul_le_mul_of_nonneg_right hκ1 ht.le
    linarith
  · have h1 : |q'.y - q.y| ≤ 15 * κ * tol := by
      rw [← hsD, show q'.y - q.y = s * (c.y - q.y) by rw [hq']; ring, abs_mul, abs_of_nonneg hs0]
      exact mul_le_mul_of_nonneg_left hcq.2 hs0
    have h2 := abs_sub_le q'.y q.y p.y
    have h4 := C.dy
    rw [abs_sub_comm] at h4
    have h5 := mul_le_mul_of_nonneg_right hκ1 ht.le
    linarith
  · intro k _
    have a1 := C.corner k
    have a2 := hcc k
    simp only [abs_le] at a1 a2 ⊢
    obtain ⟨⟨a11, a12⟩, a13, a14⟩ := a1
    obtain ⟨⟨b11, b12⟩, b13, b14⟩ := a2
    have ex : (corner l h k).x - q'.x = (1 - s) * ((corner l h k).x - q.x) + s * ((corner l h k).x - c.x) := by rw [hq']; ring
    have ey : (corner l h k).y - q'.y = (1 - s) * ((corner l h k).y - q.y) + s * ((corner l h k).y - c.y) := by rw [hq']; ring
    rw [ex, ey]
    have hs' : 0 ≤ 1 - s := by linarith
    refine ⟨⟨?_, ?_⟩, ⟨?_, ?_⟩⟩
    · have := mul_le_mul_of_nonneg_left a11 hs'; have := mul_le_mul_of_nonneg_left b11 hs0; linarith
    · have := mul_le_mul_of_nonneg_left a12 hs'; have := mul_le_mul_of_nonneg_left b12 hs0; linarith
    · have := mul_le_mul_of_nonneg_left a13 hs'; have := mul_le_mul_of_nonneg_left b13 hs0; linarith
    · have := mul_le_mul_of_nonneg_left a14 hs'; have := mul_le_mul_of_nonneg_left b14 hs0; linarith

end FatStored

/-- Rounding errors of the normalisation. -/
theorem norm_err {n : Nat} {W f : Nat → ℚ} {S : ℚ} (hn : (3 : ℚ) ≤ n) (hn' : (n : ℚ) ≤ 2 ^ 20) (hW : ∀ k < n, 0 ≤ W k)
    (h0 : 0 < ∑ k ∈ Finset.range n, W k)
    (hS : |S - ∑ k ∈ Finset.range n, W k| ≤ 2 * n * u * ∑ k ∈ Finset.range n, W k)
    (hf : ∀ k < n, |f k - W k / S| ≤ u * (W k / S) + eta) :
    |∑ k ∈ Finset.range n, f k - 1| ≤ 3 * n * u ∧ ∀ {x : Nat → ℚ} {D B : ℚ}, (∀ k < n, |x k| ≤ D) → 0 ≤ D →
      |∑ k ∈ Finset.range n, W k * x k| ≤ B * ∑ k ∈ Finset.range n, W k → 0 ≤ B →
      |∑ k ∈ Finset.range n, f k * x k| ≤ 101 / 100 * B + 2 * u * D := by
  have hu := u_pos
  set Z := ∑ k ∈ Finset.range n, W k with hZ
  have hnu : 2 * n * u ≤ 1 / 10000 := by
    have := mul_le_mul_of_nonneg_left hn' (show 0 ≤ 2 * u by linarith)
    have h' : 2 * u * 2 ^ 20 ≤ 1 / 10000 := by unfold u; norm_num
    linarith
  obtain ⟨s1, s2⟩ := abs_le.1 hS
  have hnuZ : 2 * n * u * Z ≤ 1 / 10000 * Z := mul_le_mul_of_nonneg_right hnu h0.le
  have hS0 : 0 < S := by linarith
  set r := Z / S with hr
  have hrS : r * S = Z := by rw [hr, div_mul_cancel₀ _ hS0.ne']
  have hr0 : 0 < r := div_pos h0 hS0
  have hr1 : r ≤ 1001 / 1000 := by rw [hr, div_le_iff₀ hS0]; linarith
  have hr2 : |r - 1| ≤ 2 * n * u * (1001 / 1000) := by
    have e : r - 1 = (Z - S) / S := by rw [hr]; field_simp
    rw [e, abs_div, abs_of_pos hS0, div_le_iff₀ hS0, abs_sub_comm]
    refine hS.trans ?_
    have : 0 ≤ 2 * n * u := by positivity
    have := mul_le_mul_of_nonneg_left (show Z ≤ 1001 / 1000 * S by linarith) this
    linarith
  have heta : n * eta ≤ u / 1000 := by
    have h1 : eta ≤ 1 / 2 ^ 200 := by unfold eta; exact inv_pow_le (by norm_num)
    have h2 : (n : ℚ) * eta ≤ 2 ^ 20 * (1 / 2 ^ 200) := mul_le_mul hn' h1 eta_pos.le (by positivity)
    have h3 : (2 : ℚ) ^ 20 * (1 / 2 ^ 200) ≤ u / 1000 := by unfold u; norm_num
    exact h2.trans h3
  have hsum : ∑ k ∈ Finset.range n, W k / S = r := by rw [← Finset.sum_div]
  have herr : ∑ k ∈ Finset.range n, (u * (W k / S) + eta) = u * r + n * eta := by
    rw [Finset.sum_add_distrib, ← Finset.mul_sum, hsum, Finset.sum_const, Finset.card_range, nsmul_eq_mul]
  have hur : u * r ≤ u * (1001 / 1000) := mul_le_mul_of_nonneg_left hr1 hu.le
  refine ⟨?_, ?_⟩
  · have e : ∑ k ∈ Finset.range n, f k - 1 = (r - 1) + ∑ k ∈ Finset.range n, (f k - W k / S) := by
      rw [Finset.sum_sub_distrib, hsum]; ring
    rw [e]
    have h1 : |∑ k ∈ Finset.range n, (f k - W k / S)| ≤ u * r + n * eta := by
      rw [← herr]
      exact (Finset.abs_sum_le_sum_abs _ _).trans (Finset.sum_le_sum fun k hk => hf k (Finset.mem_range.1 hk))
    have h2 := abs_add_le (r - 1) (∑ k ∈ Finset.range n, (f k - W k / S))
    have h3 : 3 * u ≤ n * u := mul_le_mul_of_nonneg_right hn hu.le
    linarith
  · intro x D B hx hD hB hB0
    have e : ∑ k ∈ Finset.range n, f k * x k = (∑ k ∈ Finset.range n, W k * x k) / S + ∑ k ∈ Finset.range n, (f k - W k / S) * x k := by
      rw [Finset.sum_div, ← Finset.sum_add_distrib]
      exact Finset.sum_congr rfl fun k _ => by ring
    rw [e]
    have h1 : |∑ k ∈ Finset.range n, (f k - W k / S) * x k| ≤ (u * r + n * eta) * D := by
      rw [← herr, Finset.sum_mul]
      refine (Finset.abs_sum_le_sum_abs _ _).trans (Finset.sum_le_sum fun k hk => ?_)
      rw [abs_mul]
      exact mul_le_mul (hf k (Finset.mem_range.1 hk)) (hx k (Finset.mem_range.1 hk)) (abs_nonneg _)
        ((abs_nonneg _).trans (hf k (Finset.mem_range.1 hk)))
    have h2 : |(∑ k ∈ Finset.range n, W k * x k) / S| ≤ B * r := by
      rw [abs_div, abs_of_pos hS0, div_le_iff₀ hS0, mul_assoc, hrS]
      exact hB
    have h3 := mul_le_mul_of_nonneg_left hr1 hB0
    have h4 : (u * r + n * eta) * D ≤ 2 * u * D := mul_le_mul_of_nonneg_right (by linarith) hD
    have h5 := abs_add_le ((∑ k ∈ Finset.range n, W k * x k) / S) (∑ k ∈ Finset.range n, (f k - W k / S) * x k)
    linarith

namespace FatStored
variable (F : FatStored M D κ tol h σ) {p q : Pt ℚ} (C : CloseTo h σ D tol p q)
include F C

theorem sum_err (hn : ∀ j ≤ l.length, ¬ nearSideF h tol p j) {k : Nat} (hk : k ≤ l.length) :
    |sumF h p k - ∑ i ∈ Finset.range k, weightF h p i| ≤ 2 * k * u * ∑ i ∈ Finset.range k, weightF h p i := by
  have hu := u_pos
  induction k with
  | zero => simp [sumF]
  | succ k ih =>
    have ih := ih (by omega)
    rw [Finset.sum_range_succ]
    set Z := ∑ i ∈ Finset.range k, weightF h p i with hZ
    have hZ0 : 0 ≤ Z := Finset.sum_nonneg fun i _ => F.weight_nonneg p i
    have hw := F.weight_pos C (k := k) (by omega) (fun i hi => hn i (by omega))
    have hw0 : 0 < weightF h p k := lt_of_lt_of_le (by positivity) hw
    have hS0 := (F.sum_bound (p := p) (k := k) (by omega) (fun i hi => hn i (by omega))).1
    have hpos : 0 < sumF h p k + weightF h p k := by linarith
    have h1 := rq_rel (x := sumF h p k + weightF h p k) (by
      rw [abs_of_pos hpos]
      exact ((inv_pow_le (by norm_num)).trans hw).trans (by linarith))
    rw [abs_of_pos hpos] at h1
    change |rq (sumF h p k + weightF h p k) - _| ≤ _
    have hk0 : (0 : ℚ) ≤ k := Nat.cast_nonneg k
    have hk' : (k : ℚ) ≤ 2 ^ 20 := le_trans (by exact_mod_cast (by omega : k ≤ l.length)) F.n_le
    have hku : 2 * k * u ≤ 1 := by
      have := mul_le_mul_of_nonneg_left hk' (show 0 ≤ 2 * u by linarith)
      have h' : 2 * u * 2 ^ 20 ≤ 1 := by unfold u; norm_num
      linarith
    obtain ⟨i1, i2⟩ := abs_le.1 ih
    obtain ⟨j1, j2⟩ := abs_le.1 h1
    have hkZ := mul_le_mul_of_nonneg_right hku hZ0
    have h4 : u * (sumF h p k + weightF h p k) ≤ u * (2 * (Z + weightF h p k)) := mul_le_mul_of_nonneg_left (by linarith) hu.le
    have h5 : 0 ≤ 2 * k * u * weightF h p k := by positivity
    push_cast
    rw [abs_le]
    constructor <;> linarith

/-- The weights of a point that is not near a side. -/
theorem far_row (hn : ∀ j ≤ l.length, ¬ nearSideF h tol p j) : ∃ f : Nat → ℚ,
    (∀ k < l.length, fdiv (fin (weightF h p k)) (fin (sumF h p l.length)) = .ok (fin (f k))) ∧ (∀ k < l.length, 0 ≤ f k) ∧
    |∑ k ∈ Finset.range l.length, f k - 1| ≤ 3 * l.length * u ∧
    |∑ k ∈ Finset.range l.length, f k * (corner l h k).x - p.x| ≤ 200 * ((l.length * κ) ^ 2 * tol) ∧
    |∑ k ∈ Finset.range l.length, f k * (corner l h k).y - p.y| ≤ 200 * ((l.length * κ) ^ 2 * tol) := by
  have hu := u_pos
  obtain ⟨q', q1, q2, q3, w0, w1, w2⟩ := F.far_weights C hn
  have hS := F.sum_err C hn le_rfl
  have hnu : 2 * l.length * u ≤ 1 / 10000 := by
    have := mul_le_mul_of_nonneg_left F.n_le (show 0 ≤ 2 * u by linarith)
    have h' : 2 * u * 2 ^ 20 ≤ 1 / 10000 := by unfold u; norm_num
    linarith
  have hnuZ := mul_le_mul_of_nonneg_right hnu w0.le
  have hS1 := (abs_le.1 hS).1
  have hS0 : 0 < sumF h p l.length := by linarith
  have hle : ∀ k < l.length, weightF h p k / sumF h p l.length ≤ 2 := by
    intro k hk
    rw [div_le_iff₀ hS0]
    have := Finset.single_le_sum (f := weightF h p) (fun i _ => F.weight_nonneg p i) (Finset.mem_range.2 hk)
    linarith
  have h0 : ∀ k, 0 ≤ weightF h p k / sumF h p l.length := fun k => div_nonneg (F.weight_nonneg p k) hS0.le
  obtain ⟨r1, r2⟩ := norm_err (n := l.length) (W := weightF h p) (f := fun k => rq (weightF h p k / sumF h p l.length)) F.n_ge F.n_le
    (fun k _ => F.weight_nonneg p k) w0 hS (fun k _ => by
      have := rq_err_add (weightF h p k / sumF h p l.length)
      rwa [abs_of_nonneg (h0 k)] at this)
  have hP : 9 * tol ≤ (l.length * κ) ^ 2 * tol := mul_le_mul_of_nonneg_right F.nκ_ge F.tol_pos.le
  have hP0 : 0 ≤ (l.length * κ) ^ 2 * tol := by have := F.tol_pos; positivity
  have hκP : κ * tol * 9 ≤ (l.length * κ) ^ 2 * tol := by
    have h1 : (3 * 1) * (3 * κ) ≤ (l.length * κ) * (l.length * κ) :=
      mul_le_mul (mul_le_mul F.n_ge F.kappa (by norm_num) (by linarith [F.n_ge]))
        (mul_le_mul_of_nonneg_right F.n_ge F.κ_pos.le) (by have := F.κ_pos; positivity)
        (by have := F.κ_pos; have := F.n_ge; positivity)
    have := mul_le_mul_of_nonneg_right h1 F.tol_pos.le
    linarith
  have hnP : l.length * tol * 3 ≤ (l.length * κ) ^ 2 * tol := by
    have h1 : ((l.length : ℚ) * 1) * (3 * 1) ≤ (l.length * κ) * (l.length * κ) :=
      mul_le_mul (mul_le_mul_of_nonneg_left F.kappa (by linarith [F.n_ge]))
        (mul_le_mul F.n_ge F.kappa (by norm_num) (by linarith [F.n_ge])) (by norm_num)
        (by have := F.κ_pos; have := F.n_ge; positivity)
    have := mul_le_mul_of_nonneg_right h1 F.tol_pos.le
    linarith
  set f : Nat → ℚ := fun k => rq (weightF h p k / sumF h p l.length) with hf
  have fin1 : ∀ {c : Nat → ℚ} {qv pv : ℚ}, (∀ k < l.length, |c k - qv| ≤ D) → |qv - pv| ≤ 17 * κ * tol → |c 0| ≤ M →
      |∑ k ∈ Finset.range l.length, weightF h p k * (c k - qv)| ≤
        164 * ((l.length * κ) ^ 2 * tol) * ∑ k ∈ Finset.range l.length, weightF h p k →
      |∑ k ∈ Finset.range l.length, f k * c k - pv| ≤ 200 * ((l.length * κ) ^ 2 * tol) := by
    intro c qv pv g1 g2 g3 g4
    have g5 := r2 (x := fun k => c k - qv) g1 F.D_nonneg g4 (by linarith)
    have e : ∑ k ∈ Finset.range l.length, f k * c k - pv = ∑ k ∈ Finset.range l.length, f k * (c k - qv) +
        (∑ k ∈ Finset.range l.length, f k - 1) * qv + (qv - pv) := by
      have : ∑ k ∈ Finset.range l.length, f k * (c k - qv) = ∑ k ∈ Finset.range l.length, f k * c k - (∑ k ∈ Finset.range l.length, f k) * qv := by
        rw [Finset.sum_mul, ← Finset.sum_sub_distrib]
        exact Finset.sum_congr rfl fun k _ => by ring
      rw [this]; ring
    rw [e]
    have g6 : |qv| ≤ M + D := by
      have h1 := g1 0 h
      have h2 := abs_sub_abs_le_abs_sub qv (c 0)
      rw [abs_sub_comm qv] at h2
      linarith
    have g7 : |(∑ k ∈ Finset.range l.length, f k - 1) * qv| ≤ 3 * l.length * u * (M + D) := by
      rw [abs_mul]
      exact mul_le_mul r1 g6 (abs_nonneg _) (by have := F.n_ge; positivity)
    have g8 : u * (M + D) ≤ tol / 8 + tol / 64 := by
      have := F.tol_M
      have := F.tol_D
      linarith
    have g9 := mul_le_mul_of_nonneg_left g8 (show (0 : ℚ) ≤ 3 * l.length by have := F.n_ge; linarith)
    have g10 := F.tol_D
    have g11 := F.tol_pos
    refine (abs_add_le _ _).trans ((add_le_add (abs_add_le _ _) le_rfl).trans ?_)
    linarith
  refine ⟨f, ?_, fun k _ => rq_nonneg (h0 k), r1, fin1 (fun k hk => (q3 k hk).1) q1 (F.bnd 0).1 w1,
    fin1 (fun k hk => (q3 k hk).2) q2 (F.bnd 0).2 w2⟩
  intro k hk
  exact fdiv_fin (k := 1) hS0.ne' (by norm_num) (by rw [abs_of_nonneg (h0 k), pow_one]; exact hle k hk)

end FatStored

end Celltree.Fl
