import Verif.Proofs.FloatRect
import Verif.Proofs.FloatWeights
import Verif.Spec.FloatPolygons

/-!
# Clipping a segment by a line in binary64
-/

set_option linter.unusedSectionVars false

namespace Celltree.Fl

/-- What the computed number is, if it is one. -/
def toQ : Fl → ℚ
  | fin q => q
  | _ => 0

/-- The point where the segment from `a` to `b` is computed to cross the line from `r` to `s`. -/
def fcut (r s a b : Pt ℚ) : Pt ℚ :=
  match shIntersection (fp a) ⟨(fp b).x - (fp a).x, (fp b).y - (fp a).y⟩ (fp r) ⟨-((fp s).y - (fp r).y), (fp s).x - (fp r).x⟩ with
  | .ok (some q) => ⟨toQ q.x, toQ q.y⟩
  | _ => ⟨0, 0⟩

/-- Whether the point is computed to be on the left of the line. -/
def fins (r s p : Pt ℚ) : Bool := shInside (fp p) (fp r) ⟨(fp s).x - (fp r).x, (fp s).y - (fp r).y⟩

section
variable {M E : ℚ} (hM : 1 / 2 ^ 100 ≤ M) (hM' : M ≤ 2 ^ 198) (hE : 1 / 2 ^ 200 ≤ E)
include hM hM' hE

theorem fins_eq {r s p : Pt ℚ} (hr : |r.x| ≤ 2 * M ∧ |r.y| ≤ 2 * M) (hs : |s.x| ≤ 2 * M ∧ |s.y| ≤ 2 * M)
    (hp : |p.x| ≤ 2 * M ∧ |p.y| ≤ 2 * M) (hrs : Within E s r) (hpr : Within (2 * E) p r)
    (ho : 13 * u * E ^ 2 ≤ |orient r s p|) : fins r s p = decide (0 < orient r s p) := by
  have hE0 : 0 < E := lt_of_lt_of_le (by positivity) hE
  have hu := u_pos
  have h5 : (1 : ℚ) / 2 ^ 500 ≤ E := (inv_pow_le (by norm_num)).trans hE
  have h5' : (1 : ℚ) / 2 ^ 500 ≤ 2 * E := by linarith
  have e1 := mul_err hrs.1 hpr.2 h5 h5'
  have e2 := mul_err hrs.2 hpr.1 h5 h5'
  unfold fins shInside fp
  simp only
  rw [diff_fin hM hM' hs.1 hr.1, diff_fin hM hM' hs.2 hr.2, diff_fin hM hM' hp.1 hr.1, diff_fin hM hM' hp.2 hr.2,
    mul_fin (k := 300 + 300) (by norm_num) (abs_mul_le_pow (diff_300 hM hM' hs.1 hr.1) (diff_300 hM hM' hp.2 hr.2)),
    mul_fin (k := 300 + 300) (by norm_num) (abs_mul_le_pow (diff_300 hM hM' hs.2 hr.2) (diff_300 hM hM' hp.1 hr.1))]
  rw [decide_eq_decide, gt_iff_lt, lt_fin]
  have e : orient r s p = (s.x - r.x) * (p.y - r.y) - (s.y - r.y) * (p.x - r.x) := by unfold orient; ring
  rw [e] at ho ⊢
  have huE : 0 < u * E ^ 2 := by positivity
  rw [abs_le] at e1 e2
  constructor
  · intro h
    by_contra hno
    rw [abs_of_nonpos (not_lt.1 hno)] at ho
    nlinarith [e1.1, e1.2, e2.1, e2.2]
  · intro h
    rw [abs_of_pos h] at ho
    nlinarith [e1.1, e1.2, e2.1, e2.2]

/-- The computed point is near the segment and near the line. -/
theorem fcut_spec {r s a b : Pt ℚ} (hr : |r.x| ≤ 2 * M ∧ |r.y| ≤ 2 * M) (hs : |s.x| ≤ 2 * M ∧ |s.y| ≤ 2 * M)
    (ha : |a.x| ≤ 2 * M ∧ |a.y| ≤ 2 * M) (hb : |b.x| ≤ 2 * M ∧ |b.y| ≤ 2 * M)
    (hrs : Within E s r) (hra : Within (2 * E) r a) (hab : Within (2 * E) b a)
    (ho : (orient r s a < 0 ∧ 0 < orient r s b) ∨ (orient r s b < 0 ∧ 0 < orient r s a))
    (h1 : 4096 * u * E ^ 2 ≤ |orient r s a|) (h2 : 4096 * u * E ^ 2 ≤ |orient r s b|) :
    shIntersection (fp a) ⟨(fp b).x - (fp a).x, (fp b).y - (fp a).y⟩ (fp r) ⟨-((fp s).y - (fp r).y), (fp s).x - (fp r).x⟩ =
        .ok (some (fp (fcut r s a b))) ∧ IsRep (fcut r s a b).x ∧ IsRep (fcut r s a b).y ∧
      ∃ τ, 0 ≤ τ ∧ τ ≤ 1 ∧ Within (M / 2 ^ 48) (fcut r s a b) (lineAt a b τ) ∧
        |orient r s (lineAt a b τ)| ≤ 216 * u * E ^ 2 := by
  have hE0 : 0 < E := lt_of_lt_of_le (by positivity) hE
  have hu := u_pos
  have hu' := u_le
  have h5 : (1 : ℚ) / 2 ^ 500 ≤ E := (inv_pow_le (by norm_num)).trans hE
  have h5' : (1 : ℚ) / 2 ^ 500 ≤ 2 * E := by linarith
  have huE : 0 < u * E ^ 2 := by positivity
  have hE2 : E ≤ 2 * E := by linarith
  set oa := orient r s a with hoa
  set ob := orient r s b with hob
  set nw := crossR (s.x - r.x) (s.y - r.y) (r.x - a.x) (r.y - a.y) with hnw
  set nv := crossR (s.x - r.x) (s.y - r.y) (b.x - a.x) (b.y - a.y) with hnv
  have e1 : |nw - (-oa)| ≤ 36 * (u * E ^ 2) := by
    have := cross_err (hrs.1.trans hE2) hra.1 (hrs.2.trans hE2) hra.2 h5' h5'
    rw [show (s.x - r.x) * (r.y - a.y) - (s.y - r.y) * (r.x - a.x) = -oa by rw [hoa]; unfold orient; ring] at this
    refine this.trans (le_of_eq ?_)
    ring
  have e2 : |nv - (ob - oa)| ≤ 36 * (u * E ^ 2) := by
    have := cross_err (hrs.1.trans hE2) hab.1 (hrs.2.trans hE2) hab.2 h5' h5'
    rw [show (s.x - r.x) * (b.y - a.y) - (s.y - r.y) * (b.x - a.x) = ob - oa by rw [hoa, hob]; unfold orient; ring] at this
    refine this.trans (le_of_eq ?_)
    ring
  have hk4 : |ob - oa| ≤ 4 * E ^ 2 := by
    rw [show ob - oa = (s.x - r.x) * (b.y - a.y) - (s.y - r.y) * (b.x - a.x) by rw [hoa, hob]; unfold orient; ring]
    refine (abs_sub _ _).trans ?_
    rw [abs_mul, abs_mul]
    have m1 := mul_le_mul hrs.1 hab.2 (abs_nonneg _) hE0.le
    have m2 := mul_le_mul hrs.2 hab.1 (abs_nonneg _) hE0.le
    nlinarith
  have hsum : |ob - oa| = |oa| + |ob| := by
    rcases ho with ⟨x, y⟩ | ⟨x, y⟩
    · rw [abs_of_neg x, abs_of_pos y, abs_of_pos (by linarith)]; ring
    · rw [abs_of_neg x, abs_of_pos y, abs_of_neg (by linarith)]; ring
  have hk : 0 < |ob - oa| := by rw [hsum]; linarith
  set κ := 36 * (u * E ^ 2) / |ob - oa| with hκ
  have hκk : κ * |ob - oa| = 36 * (u * E ^ 2) := by rw [hκ]; field_simp
  have hκ0 : 0 ≤ κ := by positivity
  have hκ1 : κ ≤ 1 / 16 := by
    rw [hκ, div_le_iff₀ hk, hsum]; linarith
  have hκu : u ≤ κ := by
    rw [hκ, le_div_iff₀ hk]
    have := mul_le_mul_of_nonneg_left hk4 hu.le
    nlinarith
  have hit := hit_err hk (e1.trans hκk.ge) (e2.trans hκk.ge) hκ0 hκ1 hκu
  set t := -oa / (ob - oa) with ht
  have hkne : ob - oa ≠ 0 := abs_pos.1 hk
  have ht1 : |t| * |ob - oa| = |oa| := by
    rw [ht, ← abs_mul, div_mul_cancel₀ _ hkne, abs_neg]
  have ht0 : 0 ≤ t ∧ t ≤ 1 := by
    rw [ht]
    refine frac_range ?_
    rcases ho with ⟨x, y⟩ | ⟨x, y⟩
    · exact Or.inl ⟨by linarith, by linarith⟩
    · exact Or.inr ⟨by linarith, by linarith⟩
  have htc : (1 - t) * |ob - oa| = |ob| := by
    rw [abs_of_nonneg ht0.1] at ht1
    linarith [hsum]
  have hit' : |rq (nw / nv) - t| ≤ 6 * κ := by
    refine hit.trans ?_
    rw [abs_of_nonneg ht0.1]
    nlinarith [ht0.2]
  set τ := rq (nw / nv) with hτ
  have hkk : 6 * κ * |ob - oa| = 216 * (u * E ^ 2) := by linarith
  have hτ0 : 0 ≤ τ := by
    by_contra hno
    have h3 : t ≤ 6 * κ := by
      rw [abs_le] at hit'
      linarith [hit'.1]
    have h4 := mul_le_mul_of_nonneg_right h3 hk.le
    rw [abs_of_nonneg ht0.1] at ht1
    linarith
  have hτ1 : τ ≤ 1 := by
    by_contra hno
    have h3 : 1 - t ≤ 6 * κ := by
      rw [abs_le] at hit'
      linarith [hit'.2]
    have h4 := mul_le_mul_of_nonneg_right h3 hk.le
    linarith
  have hnv0 : |nw| ≤ |nv| ∧ 0 < |nv| := by
    have h3 : |nw| ≤ |oa| + 36 * (u * E ^ 2) := by
      calc |nw| = |(nw - -oa) + -oa| := by ring_nf
        _ ≤ |nw - -oa| + |-oa| := abs_add_le _ _
        _ ≤ _ := by rw [abs_neg]; linarith
    have h4 : |ob - oa| ≤ |nv| + 36 * (u * E ^ 2) := by
      calc |ob - oa| = |nv - (nv - (ob - oa))| := by ring_nf
        _ ≤ |nv| + |nv - (ob - oa)| := abs_sub _ _
        _ ≤ _ := by linarith
    constructor <;> linarith
  obtain ⟨px, hpx, hpx'⟩ := toCoord_fl (two_M hM hM').1 (two_M hM hM').2 ha.1 hb.1 hτ0 hτ1
  obtain ⟨py, hpy, hpy'⟩ := toCoord_fl (two_M hM hM').1 (two_M hM hM').2 ha.2 hb.2 hτ0 hτ1
  have big : ∀ {x y : ℚ}, |x| ≤ 2 * M → |y| ≤ 2 * M → |rq (x - y)| ≤ 2 ^ 201 := fun hx hy =>
    (diff_le hM hM' hx hy).2.trans (pow_le_pow_right₀ (by norm_num) (by norm_num))
  have main : shIntersection (fp a) ⟨(fp b).x - (fp a).x, (fp b).y - (fp a).y⟩ (fp r)
      ⟨-((fp s).y - (fp r).y), (fp s).x - (fp r).x⟩ = .ok (some (fp ⟨px, py⟩)) := by
    rw [shIntersection_of hM hM' (nw := nw) (nv := nv) ?_ ?_ (abs_pos.1 hnv0.2) ?_]
    · simp only [fp]
      rw [diff_fin hM hM' hb.1 ha.1, diff_fin hM hM' hb.2 ha.2, ← hτ, hpx, hpy]
    · simp only [fp]
      rw [diff_fin hM hM' hs.1 hr.1, diff_fin hM hM' hs.2 hr.2, diff_fin hM hM' hr.1 ha.1, diff_fin hM hM' hr.2 ha.2]
      exact (dotN_fl (big hs.1 hr.1) (big hs.2 hr.2) (big hr.1 ha.1) (big hr.2 ha.2)).1
    · simp only [fp]
      rw [diff_fin hM hM' hs.1 hr.1, diff_fin hM hM' hs.2 hr.2, diff_fin hM hM' hb.1 ha.1, diff_fin hM hM' hb.2 ha.2]
      exact (dotN_fl (big hs.1 hr.1) (big hs.2 hr.2) (big hb.1 ha.1) (big hb.2 ha.2)).1
    · rw [abs_div, pow_zero]
      exact div_le_one_of_le₀ hnv0.1 (abs_nonneg _)
  have ef : fcut r s a b = ⟨px, py⟩ := by
    unfold fcut
    rw [main]
    rfl
  rw [ef]
  refine ⟨main, sum_rep hM hM' hpx, sum_rep hM hM' hpy, τ, hτ0, hτ1, ⟨?_, ?_⟩, ?_⟩
  · refine hpx'.trans (le_of_eq ?_)
    ring
  · refine hpy'.trans (le_of_eq ?_)
    ring
  · rw [orient_lineAt, ← hoa, ← hob]
    have : (1 - τ) * oa + τ * ob = (τ - t) * (ob - oa) := by
      have : t * (ob - oa) = -oa := by rw [ht, div_mul_cancel₀ _ hkne]
      linear_combination this
    first
      | rw [this]
      | rw [show oa + τ * (ob - oa) = (τ - t) * (ob - oa) by linear_combination this]
    rw [abs_mul]
    have := mul_le_mul_of_nonneg_right hit' hk.le
    linarith

end

end Celltree.Fl
