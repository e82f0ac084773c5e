import Verif.Proofs.AxisEdges
import Verif.Proofs.FloatConvex
import Verif.Proofs.FloatWeights
import Verif.Proofs.FloatClip

/-!
# Cyrus-Beck in binary64, for edges in general position
-/

set_option linter.unusedSectionVars false

namespace Celltree

section
variable {F : Type} [Add F] [Sub F] [Mul F] [Div F] [Neg F] [Zero F] [One F] [IntCast F]
  [LT F] [LE F] [BEq F] [DecidableLT F] [DecidableLE F]
variable (a b s : Pt F) (poly : List (Pt F)) (hp : 0 < poly.length)

/-- What the scan can return if no corner is on the line. -/
def ScanClear (k : Nat) (i0 i1 : Int) : Prop :=
  (k = 0 ∧ ∀ m < poly.length, isNeg a s poly hp m = isNeg a s poly hp (m + 1)) ∨
  (k = 2 ∧ ∃ j0 j1 : Nat, i0 = j0 ∧ i1 = j1 ∧ j0 < poly.length ∧ j1 < poly.length ∧
    isNeg a s poly hp (j0 + 1) = !isNeg a s poly hp j0 ∧ isNeg a s poly hp j1 = !isNeg a s poly hp j0 ∧
    isNeg a s poly hp (j1 + 1) = isNeg a s poly hp j0)

/-- The state of the scan at index `i`. -/
def ClearInv (i k : Nat) (i0 i1 : Int) : Prop :=
  (k = 0 ∧ isNeg a s poly hp i = isNeg a s poly hp 0 ∧ ∀ m < i, isNeg a s poly hp m = isNeg a s poly hp (m + 1)) ∨
  (k = 1 ∧ ∃ j0 : Nat, i0 = j0 ∧ j0 < poly.length ∧ isNeg a s poly hp j0 = isNeg a s poly hp 0 ∧
    isNeg a s poly hp (j0 + 1) = !isNeg a s poly hp 0 ∧ isNeg a s poly hp i = !isNeg a s poly hp 0) ∨
  (k = 2 ∧ ∃ j0 j1 : Nat, i0 = j0 ∧ i1 = j1 ∧ j0 < poly.length ∧ j1 < poly.length ∧
    isNeg a s poly hp (j0 + 1) = !isNeg a s poly hp j0 ∧ isNeg a s poly hp j1 = !isNeg a s poly hp j0 ∧
    isNeg a s poly hp (j1 + 1) = isNeg a s poly hp j0)

theorem cbScan_clear (hnz : ∀ m, (cross (toVector a (corner poly hp m)) s == 0) = false) (n i k : Nat) (i0 i1 : Int)
    (hi : i + n = poly.length) (hinv : ClearInv a s poly hp i k i0 i1) :
    ∃ k' i0' i1', cbScan a b s poly n i k i0 i1 (cross (toVector a (corner poly hp i)) s) = .ok (.found k' i0' i1') ∧
      ScanClear a s poly hp k' i0' i1' := by
  induction n generalizing i k i0 i1 with
  | zero =>
    refine ⟨_, _, _, rfl, ?_⟩
    obtain rfl : i = poly.length := by omega
    have e : isNeg a s poly hp poly.length = isNeg a s poly hp 0 := by unfold isNeg; rw [corner_add]
    rcases hinv with ⟨h0, _, h1⟩ | ⟨_, j0, _, _, _, _, h5⟩ | h
    · exact Or.inl ⟨h0, h1⟩
    · rw [e] at h5
      cases h : isNeg a s poly hp 0 <;> rw [h] at h5 <;> cases h5
    · exact Or.inr h
  | succ n ih =>
    unfold cbScan
    by_cases hk : k < 2
    · rw [if_pos hk]
      have hil : i < poly.length := by omega
      rw [rd_corner_lt hp hil, ok_bind, rd_corner hp (i + 1), ok_bind]
      have hneg : ∀ m, decide (cross (toVector a (corner poly hp m)) s < 0) = isNeg a s poly hp m := fun _ => rfl
      simp only [hneg, hnz, Bool.and_self, Bool.false_eq_true, if_false]
      by_cases hc : isNeg a s poly hp i = isNeg a s poly hp (i + 1)
      · have hc' : (isNeg a s poly hp i != isNeg a s poly hp (i + 1)) = false := by simp [hc]
        rw [hc']
        simp only [Bool.false_eq_true, if_false]
        apply ih
        · omega
        · rcases hinv with ⟨h0, h1, h2⟩ | ⟨h0, j0, h1, h2, h3, h4, h5⟩ | ⟨h0, _⟩
          · refine Or.inl ⟨h0, hc ▸ h1, ?_⟩
            intro m hm
            rcases Nat.lt_succ_iff_lt_or_eq.1 hm with h | rfl
            · exact h2 m h
            · exact hc
          · exact Or.inr (Or.inl ⟨h0, j0, h1, h2, h3, h4, hc ▸ h5⟩)
          · omega
      · have hc' : (isNeg a s poly hp i != isNeg a s poly hp (i + 1)) = true := by simpa using hc
        have hnot : isNeg a s poly hp (i + 1) = !isNeg a s poly hp i := by
          cases h1 : isNeg a s poly hp i <;> cases h2 : isNeg a s poly hp (i + 1) <;> simp_all
        rw [hc']
        simp only [if_true]
        by_cases hk0 : k = 0
        · rw [if_pos hk0]
          apply ih
          · omega
          · rcases hinv with ⟨h0, h1, h2⟩ | ⟨h0, _⟩ | ⟨h0, _⟩
            · refine Or.inr (Or.inl ⟨by omega, i, rfl, hil, h1, ?_, ?_⟩) <;> rw [hnot, h1]
            · omega
            · omega
        · rw [if_neg hk0]
          apply ih
          · omega
          · rcases hinv with ⟨h0, h1, h2⟩ | ⟨h0, j0, h1, h2, h3, h4, h5⟩ | ⟨h0, _⟩
            · omega
            · refine Or.inr (Or.inr ⟨by omega, j0, i, h1, rfl, h2, hil, by rw [h4, h3], by rw [h5, h3], ?_⟩)
              rw [hnot, h5, h3, Bool.not_not]
            · omega
    · rw [if_neg hk]
      refine ⟨_, _, _, rfl, ?_⟩
      rcases hinv with ⟨h0, h1, h2⟩ | ⟨h0, _⟩ | h
      · omega
      · omega
      · exact Or.inr h

end

namespace Fl

/-! ## The tests of the ends -/

theorem NearF.mono {tol tol' : ℚ} {p : Pt ℚ} {s : Pt ℚ × Pt ℚ} (h0 : 0 ≤ tol) (h : tol ≤ tol') (hn : NearF tol p s) :
    NearF tol' p s := by
  refine ⟨lt_of_lt_of_le hn.1 (rq_mono ?_), hn.2⟩
  have hl : 0 ≤ lsqF s.1 s.2 := by
    show 0 ≤ rq _
    exact rq_nonneg (add_nonneg (rq_nonneg (mul_self_nonneg _)) (rq_nonneg (mul_self_nonneg _)))
  have h1 : rq (tol * lsqF s.1 s.2) ≤ rq (tol' * lsqF s.1 s.2) := rq_mono (mul_le_mul_of_nonneg_right h hl)
  exact mul_le_mul h1 h h0 (rq_nonneg (mul_nonneg (h0.trans h) hl))

/-- Away from the sides, the point test of the code is right. -/
theorem accepts_clear {M D tol : ℚ} {l poly : List (Pt ℚ)} {p : Pt ℚ} (hl : ConvexPoly l) (hg : GoodPoly M D l)
    (hM : 1 / 2 ^ 100 ≤ M) (ht : 0 ≤ tol) (hpoly : poly = l ∨ poly = l.reverse)
    (hfar : ∀ s ∈ sides l, ¬ OnNear (2 * max tol (slack M D)) s.1 s.2 p) : AcceptsF tol poly p ↔ InPoly l p := by
  have hgp : GoodPoly M D poly := by
    rcases hpoly with rfl | rfl
    · exact hg
    · exact hg.reverse
  have hfar' : ∀ s ∈ sides poly, ¬ OnNear (2 * max tol (slack M D)) s.1 s.2 p := by
    intro s hs
    rcases mem_sides_poly' hpoly hs with h | h
    · exact hfar s h
    · rintro ⟨t, t0, t1, h2⟩
      refine hfar _ h ⟨1 - t, by linarith, by linarith, ?_⟩
      have : lineAt s.swap.1 s.swap.2 (1 - t) = lineAt s.1 s.2 t := by
        unfold lineAt
        refine Pt.ext' ?_ ?_ <;> simp only [Prod.fst_swap, Prod.snd_swap] <;> ring
      rw [this]; exact h2
  have hnn : ∀ s ∈ sides poly, s.1 ≠ s.2 → ¬ NearF tol p s := by
    intro s hs hne hn
    obtain ⟨t, t0, t1, h4, h5⟩ := near_sound (hgp.side _ hs hne) hM (le_max_right tol _) (hn.mono ht (le_max_left _ _))
    exact hfar' s hs ⟨t, t0, t1, h4, h5⟩
  have hray : ∀ s ∈ sides poly, rayF p s = decide (Crosses p s) := by
    rintro ⟨v, w⟩ hs
    by_contra hw
    have hne : v ≠ w := by
      rintro rfl
      exact hw (by rw [rayF_same]; symm; simpa using not_crosses_same p v)
    have hgs := hgp.side _ hs hne
    simp only at hgs
    have hsl := slack_small hM hgs.D_nonneg
    have hs0 : 0 < slack M D := lt_of_lt_of_le (by positivity) hsl
    obtain ⟨y1, y2, hy, hz⟩ := ray_wrong hgs hM hw
    obtain ⟨t, t0, t1, sy, sx⟩ := on_segment_y y1 y2 (sub_ne_zero.2 hy)
    have hm := le_max_right tol (slack M D)
    refine hfar' _ hs ⟨t, t0, t1, ?_, ?_⟩
    · have hd0 : w.y - v.y ≠ 0 := sub_ne_zero.2 hy
      have : (lineAt v w t).x = (w.x - v.x) * (p.y - v.y) / (w.y - v.y) + v.x := by
        have : (lineAt v w t).x = ((w.y - v.y) * v.x + (p.y - v.y) * (w.x - v.x)) / (w.y - v.y) := by
          rw [eq_div_iff hd0, ← sx]; ring
        rw [this]; field_simp; ring
      simp only
      rw [this, abs_sub_comm]
      linarith
    · simp only
      rw [sy, sub_self, abs_zero]; linarith
  have hcount : (sides poly).countP (rayF p) = (sides l).countP (fun s => decide (Crosses p s)) := by
    rw [← countP_poly hpoly]
    apply List.countP_congr
    intro s hs
    rw [hray s hs]
  constructor
  · rintro (⟨s, h1, h2, h3⟩ | h)
    · exact absurd h3 (hnn s h1 h2)
    · rw [hcount] at h
      exact hl.odd_inPoly h
  · intro h
    right
    rw [hcount]
    by_cases hi : InInterior l p
    · exact hl.interior_odd hi
    · obtain ⟨⟨v, w⟩, hs, hne, t, h0, h1, rfl⟩ := hl.on_side h hi
      refine absurd ⟨t, h0, h1, within_self ?_ _⟩ (hfar _ hs)
      have := le_max_left tol (slack M D)
      linarith

/-! ## The parameters of the crossings -/

/-- The relative error of a parameter. -/
def theta (ρ : ℚ) : ℚ := 1 / (2 ^ 47 * ρ)

theorem hit_err {n k n' k' κ : ℚ} (hk : 0 < |k|) (h1 : |n' - n| ≤ κ * |k|) (h2 : |k' - k| ≤ κ * |k|) (hκ0 : 0 ≤ κ)
    (hκ : κ ≤ 1 / 16) (hu : u ≤ κ) : |rq (n' / k') - n / k| ≤ 3 * κ * (1 + |n / k|) := by
  have hu0 := u_pos
  have hk' : 15 / 16 * |k| ≤ |k'| := by
    have : |k| ≤ |k'| + |k' - k| := by
      calc |k| = |k' - (k' - k)| := by ring_nf
        _ ≤ _ := abs_sub _ _
    have h3 : κ * |k| ≤ 1 / 16 * |k| := mul_le_mul_of_nonneg_right hκ hk.le
    linarith
  have hk0 : 0 < |k'| := lt_of_lt_of_le (by linarith) hk'
  have hkne : k ≠ 0 := abs_pos.1 hk
  have hkne' : k' ≠ 0 := abs_pos.1 hk0
  set t := n / k with ht
  have e : n' / k' - t = ((n' - n) - t * (k' - k)) / k' := by
    rw [ht]; field_simp; ring
  have h3 : |n' / k' - t| ≤ 16 / 15 * κ * (1 + |t|) := by
    rw [e, abs_div, div_le_iff₀ hk0]
    have t0 := abs_nonneg t
    calc |(n' - n) - t * (k' - k)| ≤ |n' - n| + |t| * |k' - k| := by
          rw [← abs_mul]; exact abs_sub _ _
      _ ≤ κ * |k| + |t| * (κ * |k|) := add_le_add h1 (mul_le_mul_of_nonneg_left h2 t0)
      _ = κ * (1 + |t|) * |k| := by ring
      _ ≤ κ * (1 + |t|) * (16 / 15 * |k'|) :=
          mul_le_mul_of_nonneg_left (by linarith) (mul_nonneg hκ0 (by linarith))
      _ = _ := by ring
  have h4 := rq_err_add (n' / k')
  have h5 : |n' / k'| ≤ |t| + 16 / 15 * κ * (1 + |t|) := by
    calc |n' / k'| = |t + (n' / k' - t)| := by ring_nf
      _ ≤ _ := (abs_add_le _ _).trans (by linarith)
  have t0 := abs_nonneg t
  have he : eta ≤ u := by
    unfold eta u
    exact div_le_div_of_nonneg_left (by norm_num) (by positivity) (pow_le_pow_right₀ (by norm_num) (by norm_num))
  have h6 : |n' / k'| ≤ |t| + 1 / 15 * (1 + |t|) := by
    have : 16 / 15 * κ * (1 + |t|) ≤ 16 / 15 * (1 / 16) * (1 + |t|) :=
      mul_le_mul_of_nonneg_right (by linarith) (by linarith)
    linarith
  have h7 : u * |n' / k'| + eta ≤ 16 / 15 * κ * (1 + |t|) := by
    calc u * |n' / k'| + eta ≤ u * (|t| + 1 / 15 * (1 + |t|)) + u := add_le_add (mul_le_mul_of_nonneg_left h6 hu0.le) he
      _ = u * (16 / 15 * (1 + |t|)) := by ring
      _ ≤ κ * (16 / 15 * (1 + |t|)) := mul_le_mul_of_nonneg_right hu (by linarith)
      _ = _ := by ring
  calc |rq (n' / k') - t| = |(rq (n' / k') - n' / k') + (n' / k' - t)| := by ring_nf
    _ ≤ 16 / 15 * κ * (1 + |t|) + 16 / 15 * κ * (1 + |t|) := (abs_add_le _ _).trans (add_le_add (h4.trans h7) h3)
    _ ≤ 3 * κ * (1 + |t|) := by
      have := mul_nonneg hκ0 (show 0 ≤ 1 + |t| by linarith)
      linarith

theorem dotN_fl {dx dy sx sy : ℚ} (h1 : |rq dx| ≤ 2 ^ 201) (h2 : |rq dy| ≤ 2 ^ 201) (h3 : |rq sx| ≤ 2 ^ 201)
    (h4 : |rq sy| ≤ 2 ^ 201) :
    dot (⟨-(fin (rq dy)), fin (rq dx)⟩ : Pt Fl) ⟨fin (rq sx), fin (rq sy)⟩ = fin (crossR dx dy sx sy) ∧
      |crossR dx dy sx sy| ≤ 2 ^ 403 := by
  have m1 := abs_mul_le_pow (j := 201) (k := 201) h1 h4
  have m2 : |(-rq dy) * rq sx| ≤ 2 ^ (201 + 201) := by rw [neg_mul, abs_neg]; exact abs_mul_le_pow h2 h3
  have e : dot (⟨-(fin (rq dy)), fin (rq dx)⟩ : Pt Fl) ⟨fin (rq sx), fin (rq sy)⟩ =
      fin (-rq dy) * fin (rq sx) + fin (rq dx) * fin (rq sy) := rfl
  have n1 := abs_rq_le m1
  have n2 := abs_rq_le m2
  have hs : |rq (-rq dy * rq sx) + rq (rq dx * rq sy)| ≤ 2 ^ 403 := abs_add_le_pow n2 n1
  have e2 : rq (-rq dy * rq sx) + rq (rq dx * rq sy) = rq (rq dx * rq sy) - rq (rq dy * rq sx) := by
    rw [neg_mul, rq_neg]; ring
  rw [e, mul_fin (by norm_num) m2, mul_fin (by norm_num) m1, add_fin (by norm_num) hs]
  rw [e2] at hs ⊢
  exact ⟨rfl, abs_rq_le hs⟩

section
variable {M D E ρ tol : ℚ} {l : List (Pt ℚ)} {a b : Pt ℚ} (hM : 1 / 2 ^ 100 ≤ M) (hM' : M ≤ 2 ^ 199)
  (hg : GenPos M D E ρ tol l a b) (ma : ModPt a) (mb : ModPt b)
include hM hM' hg ma mb

theorem GenPos.E_pos : 0 < E := lt_of_lt_of_le (by positivity) hg.notTiny

theorem GenPos.rho_pos : 0 < ρ := lt_of_lt_of_le (by positivity) hg.rho.1

theorem GenPos.bnd200 {v : Pt ℚ} (hv : v ∈ l) : Bnd (2 ^ 200) v :=
  (hg.good.bnd v hv).mono (hM'.trans (pow_le_pow_right₀ (by norm_num) (by norm_num)))

theorem GenPos.kappa : 0 ≤ 18 * u / ρ ∧ 18 * u / ρ ≤ 1 / 16 ∧ u ≤ 18 * u / ρ ∧ 3 * (18 * u / ρ) ≤ theta ρ ∧
    theta ρ ≤ 1 / 16 := by
  have hρ := hg.rho_pos hM hM' ma mb
  have hu := u_pos
  have h1 := hg.rho.2
  have h2 := hg.rho.1
  rw [div_le_iff₀ (by positivity)] at h2
  have e : u = 1 / 2 ^ 53 := rfl
  refine ⟨by positivity, ?_, ?_, ?_, ?_⟩
  · rw [div_le_iff₀ hρ, e]
    norm_num at h2 ⊢
    linarith
  · rw [le_div_iff₀ hρ]
    have := mul_le_mul_of_nonneg_left h1 hu.le
    linarith
  · unfold theta
    rw [← mul_div_assoc, div_le_div_iff₀ hρ (by positivity), e]
    norm_num
    linarith
  · unfold theta
    rw [div_le_iff₀ (by positivity)]
    norm_num at h2 ⊢
    linarith

/-- The computed side of a corner is right. -/
theorem GenPos.side {v : Pt ℚ} (hv : v ∈ l) :
    ∃ X, cross (toVector (fp a) (fp v)) (toVector (fp a) (fp b)) = fin X ∧ X ≠ 0 ∧ (X < 0 ↔ 0 < orient a b v) := by
  have hE := hg.E_pos hM hM' ma mb
  have hu := u_pos
  refine ⟨_, (cross_fl ⟨ma.1.2, ma.2.2⟩ (hg.bnd200 hM hM' ma mb hv) ⟨mb.1.2, mb.2.2⟩).1, ?_⟩
  have hE5 : 1 / 2 ^ 500 ≤ E := (inv_pow_le (by norm_num)).trans hg.notTiny
  have e := cross_err (hg.size v hv).1 hg.length.1 (hg.size v hv).2 hg.length.2 hE5 hE5
  change |crossR (v.x - a.x) (v.y - a.y) (b.x - a.x) (b.y - a.y) - _| ≤ _ at e
  have e2 : (v.x - a.x) * (b.y - a.y) - (v.y - a.y) * (b.x - a.x) = -orient a b v := by unfold orient; ring
  rw [e2] at e
  set X := crossR (v.x - a.x) (v.y - a.y) (b.x - a.x) (b.y - a.y)
  have h1 := hg.corners v hv
  have hEE : 0 < E * E := mul_pos hE hE
  have h2 : 9 * u * (E * E) < ρ * E ^ 2 := by
    rw [pow_two]
    refine mul_lt_mul_of_pos_right (lt_of_lt_of_le ?_ hg.rho.1) hEE
    unfold u; norm_num
  have h3 : |X + orient a b v| < |orient a b v| := by
    have : X - -orient a b v = X + orient a b v := by ring
    rw [this] at e
    linarith
  rcases lt_trichotomy (orient a b v) 0 with h | h | h
  · rw [abs_of_neg h, abs_lt] at h3
    have hX : 0 < X := by linarith [h3.1]
    exact ⟨hX.ne', by constructor <;> intro <;> linarith⟩
  · rw [h, abs_zero] at h3
    exact absurd h3 (not_lt.2 (abs_nonneg _))
  · rw [abs_of_pos h, abs_lt] at h3
    have hX : X < 0 := by linarith [h3.2]
    exact ⟨hX.ne, by constructor <;> intro <;> linarith⟩

/-- The computed parameter of a crossing. -/
theorem GenPos.hit {v w : Pt ℚ} (hv : v ∈ l) (hw : w ∈ l)
    (ho : (orient a b v < 0 ∧ 0 < orient a b w) ∨ (orient a b w < 0 ∧ 0 < orient a b v)) :
    ∃ e τ, computeIntersection (fp a) (toVector (fp a) (fp b)) (fp v) (fp w) = .ok (e, fin τ) ∧
      |τ - hitAt a b (v, w)| ≤ theta ρ * (1 + |hitAt a b (v, w)|) := by
  have hE := hg.E_pos hM hM' ma mb
  have hρ := hg.rho_pos hM hM' ma mb
  have hu := u_pos
  obtain ⟨κ0, κ1, κ2, κ3, _⟩ := hg.kappa hM hM' ma mb
  have bv := hg.bnd200 hM hM' ma mb hv
  have bw := hg.bnd200 hM hM' ma mb hw
  have hs := toVector_fin ma mb
  have d1 := abs_sub_le_pow bw.1 bv.1
  have d2 := abs_sub_le_pow bw.2 bv.2
  have s1 := abs_sub_le_pow bv.1 ma.1.2
  have s2 := abs_sub_le_pow bv.2 ma.2.2
  have t1 := abs_sub_le_pow mb.1.2 ma.1.2
  have t2 := abs_sub_le_pow mb.2.2 ma.2.2
  obtain ⟨n1, n2⟩ := dotN_fl (abs_rq_le d1) (abs_rq_le d2) (abs_rq_le s1) (abs_rq_le s2)
  obtain ⟨k1, k2⟩ := dotN_fl (abs_rq_le d1) (abs_rq_le d2) (abs_rq_le t1) (abs_rq_le t2)
  have hE2 : 1 / 2 ^ 500 ≤ 2 * E := ((inv_pow_le (by norm_num)).trans hg.notTiny).trans (by linarith)
  have bd : ∀ x y z : ℚ, |x - z| ≤ E → |y - z| ≤ E → |x - y| ≤ 2 * E := by
    intro x y z h1 h2
    calc |x - y| = |(x - z) - (y - z)| := by ring_nf
      _ ≤ |x - z| + |y - z| := abs_sub _ _
      _ ≤ 2 * E := by linarith
  have dx := bd _ _ _ (hg.size w hw).1 (hg.size v hv).1
  have dy := bd _ _ _ (hg.size w hw).2 (hg.size v hv).2
  have e1 := cross_err dx ((hg.size v hv).1.trans (by linarith)) dy ((hg.size v hv).2.trans (by linarith)) hE2 hE2
  have e2 := cross_err dx (hg.length.1.trans (by linarith)) dy (hg.length.2.trans (by linarith)) hE2 hE2
  have q1 : (w.x - v.x) * (v.y - a.y) - (w.y - v.y) * (v.x - a.x) = -orient v w a := by unfold orient; ring
  have q2 : (w.x - v.x) * (b.y - a.y) - (w.y - v.y) * (b.x - a.x) = -(orient v w a - orient v w b) := by unfold orient; ring
  rw [q1] at e1
  rw [q2] at e2
  change |crossR (w.x - v.x) (w.y - v.y) (v.x - a.x) (v.y - a.y) - _| ≤ _ at e1
  change |crossR (w.x - v.x) (w.y - v.y) (b.x - a.x) (b.y - a.y) - _| ≤ _ at e2
  have hden : orient v w a - orient v w b = orient a b w - orient a b v := hitAt_den a b (v, w)
  have hk : 2 * (ρ * E ^ 2) ≤ |orient v w a - orient v w b| := by
    rw [hden]
    have c1 := hg.corners v hv
    have c2 := hg.corners w hw
    rcases ho with ⟨o1, o2⟩ | ⟨o1, o2⟩
    · rw [abs_of_neg o1] at c1
      rw [abs_of_pos o2] at c2
      exact le_trans (by linarith) (le_abs_self _)
    · rw [abs_of_pos o2] at c1
      rw [abs_of_neg o1] at c2
      exact le_trans (by linarith) (neg_le_abs _)
  have hρE : 0 < ρ * E ^ 2 := by positivity
  have hk0 : 0 < |-(orient v w a - orient v w b)| := by rw [abs_neg]; linarith
  have hδ : 9 * u * (2 * E * (2 * E)) ≤ 18 * u / ρ * |-(orient v w a - orient v w b)| := by
    rw [abs_neg]
    refine le_trans (le_of_eq ?_) (mul_le_mul_of_nonneg_left hk κ0)
    field_simp; ring
  have key := hit_err hk0 (e1.trans hδ) (e2.trans hδ) κ0 κ1 κ2
  have hh : -orient v w a / -(orient v w a - orient v w b) = hitAt a b (v, w) := by
    rw [neg_div_neg_eq]; rfl
  rw [hh] at key
  -- the computation
  have hkl : 1 / 2 ^ 444 ≤ |crossR (w.x - v.x) (w.y - v.y) (b.x - a.x) (b.y - a.y)| := by
    have h1 : 15 / 16 * |-(orient v w a - orient v w b)| ≤ |crossR (w.x - v.x) (w.y - v.y) (b.x - a.x) (b.y - a.y)| := by
      have h2 := (e2.trans hδ).trans (mul_le_mul_of_nonneg_right κ1 hk0.le)
      set X := crossR (w.x - v.x) (w.y - v.y) (b.x - a.x) (b.y - a.y)
      set Y := -(orient v w a - orient v w b)
      have : |Y| ≤ |X| + |X - Y| := by
        calc |Y| = |X - (X - Y)| := by ring_nf
          _ ≤ _ := abs_sub _ _
      linarith
    rw [abs_neg] at h1
    have h3 : (1 : ℚ) / 2 ^ 443 ≤ ρ * E ^ 2 := by
      have : (1 : ℚ) / 2 ^ 443 = 1 / 2 ^ 43 * (1 / 2 ^ 200) ^ 2 := by
        rw [div_pow, one_pow, ← pow_mul, div_mul_div_comm, one_mul, ← pow_add]
      rw [this]
      exact mul_le_mul hg.rho.1 (pow_le_pow_left₀ (by positivity) hg.notTiny 2) (by positivity) hρ.le
    have h4 : (1 : ℚ) / 2 ^ 444 ≤ 1 / 2 ^ 443 := inv_pow_le (by norm_num)
    linarith
  have hk0' : crossR (w.x - v.x) (w.y - v.y) (b.x - a.x) (b.y - a.y) ≠ 0 :=
    abs_pos.1 (lt_of_lt_of_le (by positivity) hkl)
  have hq : |crossR (w.x - v.x) (w.y - v.y) (v.x - a.x) (v.y - a.y) / crossR (w.x - v.x) (w.y - v.y) (b.x - a.x) (b.y - a.y)| ≤
      2 ^ 847 := by
    rw [abs_div, div_le_iff₀ (abs_pos.2 hk0')]
    calc _ ≤ (2 : ℚ) ^ 403 := n2
      _ = 2 ^ 847 * (1 / 2 ^ 444) := by rw [mul_one_div, eq_div_iff (by positivity), ← pow_add]
      _ ≤ _ := mul_le_mul_of_nonneg_left hkl (by positivity)
  refine ⟨decide (fin (crossR (w.x - v.x) (w.y - v.y) (v.x - a.x) (v.y - a.y)) > 0),
    rq (crossR (w.x - v.x) (w.y - v.y) (v.x - a.x) (v.y - a.y) /
    crossR (w.x - v.x) (w.y - v.y) (b.x - a.x) (b.y - a.y)), ?_, key.trans (mul_le_mul_of_nonneg_right κ3 (by positivity))⟩
  unfold computeIntersection
  have sv : toVector (fp a) (fp v) = ⟨fin (rq (v.x - a.x)), fin (rq (v.y - a.y))⟩ := by
    unfold toVector
    simp only [fp, sub_fin (k := 201) (by norm_num) s1, sub_fin (k := 201) (by norm_num) s2]
  have f1 : (fp w).y - (fp v).y = fin (rq (w.y - v.y)) := sub_fin (k := 201) (by norm_num) d2
  have f2 : (fp w).x - (fp v).x = fin (rq (w.x - v.x)) := sub_fin (k := 201) (by norm_num) d1
  simp only [sv, hs, f1, f2, n1, k1]
  rw [fdiv_fin hk0' (k := 847) (by norm_num) hq, ok_bind]

end

end Fl

end Celltree
