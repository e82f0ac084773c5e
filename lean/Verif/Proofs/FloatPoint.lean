import Verif.Proofs.FloatArith
import Verif.Proofs.ConvexPoint

/-!
# The point-in-polygon test in binary64

Per side: what the code computes, and how far it is from the exact values.
-/

namespace Celltree.Fl

/-- The x-coordinate at which the code lets the ray meet the side. -/
def rayX (p a b : Pt ℚ) : ℚ :=
  rq (rq (rq (rq (b.x - a.x) * rq (p.y - a.y)) / rq (b.y - a.y)) + a.x)

/-- The ray test of the code. -/
def rayF (p : Pt ℚ) (s : Pt ℚ × Pt ℚ) : Bool :=
  (decide (p.y < s.1.y) != decide (p.y < s.2.y)) && decide (p.x < rayX p s.1 s.2)

theorem rayCrosses_fl {p a b : Pt ℚ} (hp : Bnd (2 ^ 200) p) (ha : Bnd (2 ^ 200) a) (hb : Bnd (2 ^ 200) b)
    (hy : b.y = a.y ∨ 1 / 2 ^ 200 ≤ |b.y - a.y|) : rayCrosses (fp p) (fp a) (fp b) = .ok (rayF p (a, b)) := by
  unfold rayCrosses rayF fp
  simp only [gt_iff_lt, lt_fin]
  by_cases hc : (decide (p.y < a.y) != decide (p.y < b.y)) = true
  · rw [if_pos hc, hc, Bool.true_and]
    have hy' : 1 / 2 ^ 200 ≤ |b.y - a.y| := by
      rcases hy with h | h
      · exfalso; rw [h] at hc; simp at hc
      · exact h
    have h1 := abs_sub_le_pow hb.1 ha.1
    have h2 := abs_sub_le_pow hp.2 ha.2
    have h3 := abs_sub_le_pow hb.2 ha.2
    rw [sub_fin (by norm_num) h1, sub_fin (by norm_num) h2, sub_fin (by norm_num) h3]
    have h1 := abs_rq_le h1
    have h2 := abs_rq_le h2
    have h4 := abs_mul_le_pow h1 h2
    rw [mul_fin (by norm_num) h4]
    have h4 := abs_rq_le h4
    have h5 := le_abs_rq (by norm_num) hy'
    have hne : rq (b.y - a.y) ≠ 0 := abs_pos.1 (lt_of_lt_of_le (by positivity) h5)
    have h6 : |rq (rq (b.x - a.x) * rq (p.y - a.y)) / rq (b.y - a.y)| ≤ 2 ^ (200 + 1 + (200 + 1) + 200) := by
      rw [abs_div, div_le_iff₀ (abs_pos.2 hne)]
      refine h4.trans ?_
      rw [pow_add _ (200 + 1 + (200 + 1)) 200, mul_assoc]
      have : (1 : ℚ) ≤ 2 ^ 200 * |rq (b.y - a.y)| := by
        rwa [div_le_iff₀ (by positivity), mul_comm] at h5
      exact le_mul_of_one_le_right (by positivity) this
    rw [fdiv_fin hne (by norm_num) h6, ok_bind]
    have h6 := abs_rq_le h6
    have h7 := abs_add_le_pow h6 (abs_le_pow_mono (by norm_num) ha.1)
    rw [add_fin (by norm_num) h7]
    simp only [lt_fin]
    rfl
  · rw [if_neg hc]
    simp only [Bool.not_eq_true] at hc
    rw [hc, Bool.false_and]

/-! ## Nearness -/

/-- The cross product as it is computed. -/
def crossF (p a b : Pt ℚ) : ℚ :=
  rq (rq (rq (a.x - p.x) * rq (b.y - p.y)) - rq (rq (a.y - p.y) * rq (b.x - p.x)))

/-- The squared length as it is computed. -/
def lsqF (a b : Pt ℚ) : ℚ :=
  rq (rq (rq (b.x - a.x) * rq (b.x - a.x)) + rq (rq (b.y - a.y) * rq (b.y - a.y)))

/-- The bounds test as it is computed. -/
def BoundsF (p a b : Pt ℚ) : Prop :=
  (rq |b.y - a.y| ≤ rq |b.x - a.x| ∧ min a.x b.x ≤ p.x ∧ p.x ≤ max a.x b.x) ∨
    (rq |b.x - a.x| < rq |b.y - a.y| ∧ min a.y b.y ≤ p.y ∧ p.y ≤ max a.y b.y)

/-- The nearness test as it is computed. -/
def NearF (tol : ℚ) (p : Pt ℚ) (s : Pt ℚ × Pt ℚ) : Prop :=
  rq (crossF p s.1 s.2 * crossF p s.1 s.2) < rq (rq (tol * lsqF s.1 s.2) * tol) ∧ BoundsF p s.1 s.2

instance (tol : ℚ) (p : Pt ℚ) (s : Pt ℚ × Pt ℚ) : Decidable (NearF tol p s) := by
  unfold NearF BoundsF; infer_instance

theorem fmin_fin (a b : ℚ) : fmin (fin a) (fin b) = fin (min a b) := by
  unfold fmin
  simp only [lt_fin]
  split
  · rw [min_eq_right (by linarith)]
  · rw [min_eq_left (by linarith)]

theorem fmax_fin (a b : ℚ) : fmax (fin a) (fin b) = fin (max a b) := by
  unfold fmax
  simp only [lt_fin]
  split
  · rw [max_eq_right (by linarith)]
  · rw [max_eq_left (by linarith)]

theorem fabs_fin (a : ℚ) : fabs (fin a) = fin |a| := by
  unfold fabs
  rw [zero_def]
  simp only [lt_fin, neg_fin]
  split
  · rw [abs_of_neg ‹_›]
  · rw [abs_of_nonneg (by linarith)]

theorem inBounds_fl {p a b : Pt ℚ} (ha : Bnd (2 ^ 200) a) (hb : Bnd (2 ^ 200) b) :
    inBounds (fp p) (fp a) (fp b) = true ↔ BoundsF p a b := by
  have key : ∀ x y : ℚ, |x| ≤ 2 ^ 200 → |y| ≤ 2 ^ 200 →
      fabs (fin (max x y) - fin (min x y)) = fin (rq |y - x|) := by
    intro x y hx hy
    have h1 : |max x y - min x y| ≤ 2 ^ (200 + 1) := by
      rw [abs_max_sub_min]; exact abs_sub_le_pow hy hx
    rw [sub_fin (by norm_num) h1, fabs_fin, abs_rq, abs_max_sub_min]
  unfold inBounds BoundsF fp
  simp only [fmin_fin, fmax_fin, key _ _ ha.1 hb.1, key _ _ ha.2 hb.2, ge_iff_le, le_fin, Bool.or_eq_true,
    Bool.and_eq_true, decide_eq_true_eq, Bool.not_eq_true', decide_eq_false_iff_not, not_le]

theorem near_fl {tol : ℚ} {p a b : Pt ℚ} (hp : Bnd (2 ^ 200) p) (ha : Bnd (2 ^ 200) a) (hb : Bnd (2 ^ 200) b)
    (ht : |tol| ≤ 2 ^ 200) :
    (withinPerpendicularDistance (cross (toVector (fp p) (fp a)) (toVector (fp p) (fp b))) (toVector (fp a) (fp b))
      (fin tol) && inBounds (fp p) (fp a) (fp b)) = decide (NearF tol p (a, b)) := by
  rw [Bool.eq_iff_iff, Bool.and_eq_true, inBounds_fl ha hb, decide_eq_true_eq]
  unfold NearF
  refine and_congr_left fun _ => ?_
  unfold withinPerpendicularDistance lengthSquared cross toVector fp
  simp only [decide_eq_true_eq]
  have u1 := abs_sub_le_pow ha.1 hp.1
  have u2 := abs_sub_le_pow ha.2 hp.2
  have v1 := abs_sub_le_pow hb.1 hp.1
  have v2 := abs_sub_le_pow hb.2 hp.2
  have w1 := abs_sub_le_pow hb.1 ha.1
  have w2 := abs_sub_le_pow hb.2 ha.2
  rw [sub_fin (by norm_num) u1, sub_fin (by norm_num) u2, sub_fin (by norm_num) v1, sub_fin (by norm_num) v2,
    sub_fin (by norm_num) w1, sub_fin (by norm_num) w2]
  have u1 := abs_rq_le u1
  have u2 := abs_rq_le u2
  have v1 := abs_rq_le v1
  have v2 := abs_rq_le v2
  have w1 := abs_rq_le w1
  have w2 := abs_rq_le w2
  have m1 := abs_mul_le_pow u1 v2
  have m2 := abs_mul_le_pow u2 v1
  have m3 := abs_mul_le_pow w1 w1
  have m4 := abs_mul_le_pow w2 w2
  rw [mul_fin (by norm_num) m1, mul_fin (by norm_num) m2, mul_fin (by norm_num) m3, mul_fin (by norm_num) m4]
  have m1 := abs_rq_le m1
  have m2 := abs_rq_le m2
  have m3 := abs_rq_le m3
  have m4 := abs_rq_le m4
  have c := abs_sub_le_pow m1 m2
  have q := abs_add_le_pow m3 m4
  rw [sub_fin (by norm_num) c, add_fin (by norm_num) q]
  have c := abs_rq_le c
  have q := abs_rq_le q
  have cc := abs_mul_le_pow c c
  have tq := abs_mul_le_pow ht q
  rw [mul_fin (by norm_num) cc, mul_fin (by norm_num) tq]
  have tq := abs_rq_le tq
  have tqt := abs_mul_le_pow tq ht
  rw [mul_fin (by norm_num) tqt, lt_fin]
  rfl

/-! ## Distance between the computed and the exact tests -/

theorem slack_eq (M D : ℚ) : slack M D = 8 * u * M + 64 * u * D := by unfold slack u; ring

theorem GoodSide.swap {M D : ℚ} {a b : Pt ℚ} (h : GoodSide M D a b) : GoodSide M D b a where
  bnd_a := h.bnd_b
  bnd_b := h.bnd_a
  dx_le := by rw [abs_sub_comm]; exact h.dx_le
  dy_le := by rw [abs_sub_comm]; exact h.dy_le
  long := by rw [abs_sub_comm, abs_sub_comm a.y]; exact h.long
  height := by rw [abs_sub_comm]; exact h.height.imp Eq.symm id

theorem Bnd.mono {M B : ℚ} (h : M ≤ B) {p : Pt ℚ} (hp : Bnd M p) : Bnd B p := ⟨hp.1.trans h, hp.2.trans h⟩

/-- If the ray test of the code is wrong, the point is at the height of the side, and near it. -/
theorem ray_wrong {M D : ℚ} {p a b : Pt ℚ} (hg : GoodSide M D a b) (hM : 1 / 2 ^ 100 ≤ M)
    (hw : rayF p (a, b) ≠ decide (Crosses p (a, b))) :
    min a.y b.y ≤ p.y ∧ p.y ≤ max a.y b.y ∧ b.y ≠ a.y ∧
      |(b.x - a.x) * (p.y - a.y) / (b.y - a.y) + a.x - p.x| ≤ slack M D / 8 := by
  have hu := u_pos
  have hu' := u_le
  by_cases hc : (decide (p.y < a.y) != decide (p.y < b.y)) = true
  · have hne : b.y ≠ a.y := by
      intro h; rw [h] at hc; simp at hc
    have hy := hg.height.resolve_left hne
    have hD : 1 / 2 ^ 200 ≤ D := hy.trans hg.dy_le
    have hD0 : 0 < D := lt_of_lt_of_le (by positivity) hD
    have hM0 : 0 < M := lt_of_lt_of_le (by positivity) hM
    have hbet : min a.y b.y ≤ p.y ∧ p.y ≤ max a.y b.y := by
      rcases lt_or_ge p.y a.y with h1 | h1 <;> rcases lt_or_ge p.y b.y with h2 | h2
      · simp [h1, h2] at hc
      · exact ⟨(min_le_right _ _).trans h2, h1.le.trans (le_max_left _ _)⟩
      · exact ⟨(min_le_left _ _).trans h1, h2.le.trans (le_max_right _ _)⟩
      · simp [not_lt.2 h1, not_lt.2 h2] at hc
    have hpy : |p.y - a.y| ≤ |b.y - a.y| := by
      rcases le_total a.y b.y with h | h
      · rw [min_eq_left h, max_eq_right h] at hbet
        rw [abs_of_nonneg (by linarith), abs_of_nonneg (by linarith)]; linarith
      · rw [min_eq_right h, max_eq_left h] at hbet
        rw [abs_of_nonpos (by linarith), abs_of_nonpos (by linarith)]; linarith
    refine ⟨hbet.1, hbet.2, hne, ?_⟩
    have e1 := ray_err hpy hg.dx_le hy hD
    set T := (b.x - a.x) * (p.y - a.y) / (b.y - a.y) with hT
    set t := rq (rq (rq (b.x - a.x) * rq (p.y - a.y)) / rq (b.y - a.y)) with ht
    -- the exact crossing is between the ends
    have hz : |T + a.x| ≤ M := by
      have hd0 : b.y - a.y ≠ 0 := sub_ne_zero.2 hne
      have hl0 : 0 ≤ (p.y - a.y) / (b.y - a.y) ∧ (p.y - a.y) / (b.y - a.y) ≤ 1 := by
        rcases lt_or_gt_of_ne hne with h | h
        · rw [min_eq_right h.le, max_eq_left h.le] at hbet
          constructor
          · exact div_nonneg_of_nonpos (by linarith) (by linarith)
          · rw [div_le_one_of_neg (by linarith)]; linarith
        · rw [min_eq_left h.le, max_eq_right h.le] at hbet
          constructor
          · exact div_nonneg (by linarith) (by linarith)
          · rw [div_le_one (by linarith)]; linarith
      have : T + a.x = (1 - (p.y - a.y) / (b.y - a.y)) * a.x + (p.y - a.y) / (b.y - a.y) * b.x := by
        rw [hT]; ring
      rw [this]
      set lam := (p.y - a.y) / (b.y - a.y)
      have h1 := abs_le.1 hg.bnd_a.1
      have h2 := abs_le.1 hg.bnd_b.1
      rw [abs_le]
      constructor <;> nlinarith [hl0.1, hl0.2]
    have htx : |t + a.x| ≤ M + 6 * u * D := by
      calc |t + a.x| = |(t - T) + (T + a.x)| := by ring_nf
        _ ≤ 6 * u * D + M := (abs_add_le _ _).trans (add_le_add e1 hz)
        _ = _ := by ring
    have e2 := rq_abs htx (by
      have : (1 : ℚ) / 2 ^ 1000 ≤ 1 / 2 ^ 100 :=
        div_le_div_of_nonneg_left (by norm_num) (by positivity) (pow_le_pow_right₀ (by norm_num) (by norm_num))
      have := mul_pos hu hD0
      linarith)
    have e3 : |rayX p a b - (T + a.x)| ≤ slack M D / 8 := by
      have : rayX p a b = rq (t + a.x) := rfl
      rw [this]
      calc |rq (t + a.x) - (T + a.x)| = |(rq (t + a.x) - (t + a.x)) + (t - T)| := by ring_nf
        _ ≤ u * (M + 6 * u * D) + 6 * u * D := (abs_add_le _ _).trans (add_le_add e2 e1)
        _ = u * M + (6 * u + 6) * (u * D) := by ring
        _ ≤ u * M + 8 * (u * D) := by
            refine add_le_add le_rfl (mul_le_mul_of_nonneg_right (by linarith) (by positivity))
        _ = slack M D / 8 := by rw [slack_eq]; ring
    -- the point is between the computed and the exact crossing
    have hcr : Crosses p (a, b) ↔ p.x < T + a.x := by
      have := rayCrosses_eq p a b
      unfold rayCrosses at this
      rw [if_pos hc, fdiv_eq (sub_ne_zero.2 hne), ok_bind] at this
      have := Except.ok.inj this
      rw [decide_eq_decide] at this
      exact this.symm
    have hrf : rayF p (a, b) = decide (p.x < rayX p a b) := by
      unfold rayF; rw [hc, Bool.true_and]
    rw [hrf] at hw
    rw [abs_le] at e3 ⊢
    by_cases h1 : p.x < rayX p a b <;> by_cases h2 : p.x < T + a.x
    · simp [h1, hcr, h2] at hw
    · constructor <;> linarith
    · constructor <;> linarith
    · simp [h1, hcr, h2] at hw
  · exfalso
    apply hw
    simp only [Bool.not_eq_true] at hc
    unfold rayF
    rw [hc, Bool.false_and]
    symm
    rw [decide_eq_false_iff_not]
    rintro (⟨h1, h2, _⟩ | ⟨h1, h2, _⟩)
    · simp [not_lt.2 h1, h2] at hc
    · simp only at h1 h2
      simp [not_lt.2 h1, h2] at hc

end Celltree.Fl
