import Verif.Proofs.ClipFan
import Verif.Proofs.FloatCyrus

/-!
# Clipping by a horizontal or vertical line in binary64
-/

set_option linter.unusedSectionVars false

namespace Celltree.Fl

/-! ## Signs -/

theorem rq_mul_pos {w d : ℚ} (hw : 1 / 2 ^ 250 ≤ w) (hd : 1 / 2 ^ 250 ≤ d) : 0 < rq (w * rq d) := by
  have h1 := le_rq (isRep_two_pow_inv (k := 250) (by norm_num)) hd
  have h2 := inv_pow_mul hw h1
  exact lt_of_lt_of_le (by positivity) (le_rq (isRep_two_pow_inv (k := 250 + 250) (by norm_num)) h2)

theorem rq_mul_sign {w d : ℚ} (hw : 1 / 2 ^ 250 ≤ |w|) (hd : d = 0 ∨ 1 / 2 ^ 250 ≤ |d|) :
    (rq (w * rq d) < 0 ↔ w * d < 0) ∧ (0 < rq (w * rq d) ↔ 0 < w * d) := by
  have p0 : (0 : ℚ) < 1 / 2 ^ 250 := by positivity
  rcases hd with rfl | hd
  · simp [rq_zero]
  · rcases lt_trichotomy w 0 with h | h | h
    · rw [abs_of_neg h] at hw
      rcases lt_trichotomy d 0 with h' | h' | h'
      · rw [abs_of_neg h'] at hd
        have := rq_mul_pos hw hd
        rw [rq_neg, neg_mul_neg] at this
        have h2 := mul_pos_of_neg_of_neg h h'
        exact ⟨⟨fun x => absurd x this.le.not_gt, fun x => absurd x h2.le.not_gt⟩, fun _ => h2, fun _ => this⟩
      · rw [h', abs_zero] at hd; linarith
      · rw [abs_of_pos h'] at hd
        have := rq_mul_pos hw hd
        rw [neg_mul, rq_neg] at this
        have h2 := mul_neg_of_neg_of_pos h h'
        exact ⟨⟨fun _ => h2, fun _ => by linarith⟩, fun x => by linarith, fun x => by linarith⟩
    · rw [h, abs_zero] at hw; linarith
    · rw [abs_of_pos h] at hw
      rcases lt_trichotomy d 0 with h' | h' | h'
      · rw [abs_of_neg h'] at hd
        have := rq_mul_pos hw hd
        rw [rq_neg, mul_neg, rq_neg] at this
        have h2 := mul_neg_of_pos_of_neg h h'
        exact ⟨⟨fun _ => h2, fun _ => by linarith⟩, fun x => by linarith, fun x => by linarith⟩
      · rw [h', abs_zero] at hd; linarith
      · rw [abs_of_pos h'] at hd
        have := rq_mul_pos hw hd
        have h2 := mul_pos h h'
        exact ⟨⟨fun x => by linarith, fun x => by linarith⟩, fun _ => h2, fun _ => this⟩

/-! ## The parameter of the intersection -/

/-- The computed parameter of the intersection of the line `m = c` with the edge from `a` to `b`. -/
def parR (n a b c : ℚ) : ℚ := rq (rq (n * rq (c - a)) / rq (n * rq (b - a)))

theorem frac_range {x y : ℚ} (h : (0 ≤ x ∧ x ≤ y) ∨ (y ≤ x ∧ x ≤ 0)) : 0 ≤ x / y ∧ x / y ≤ 1 := by
  rcases h with ⟨h1, h2⟩ | ⟨h1, h2⟩
  · exact ⟨div_nonneg h1 (h1.trans h2), div_le_one_of_le₀ h2 (h1.trans h2)⟩
  · rw [← neg_div_neg_eq]
    exact ⟨div_nonneg (by linarith) (by linarith), div_le_one_of_le₀ (by linarith) (by linarith)⟩

theorem par_range {n a b c : ℚ} (h : (a ≤ c ∧ c ≤ b) ∨ (b ≤ c ∧ c ≤ a)) : 0 ≤ parR n a b c ∧ parR n a b c ≤ 1 := by
  have h1 : (0 ≤ rq (c - a) ∧ rq (c - a) ≤ rq (b - a)) ∨ (rq (b - a) ≤ rq (c - a) ∧ rq (c - a) ≤ 0) := by
    rcases h with ⟨x, y⟩ | ⟨x, y⟩
    · exact Or.inl ⟨rq_nonneg (by linarith), rq_mono (by linarith)⟩
    · refine Or.inr ⟨rq_mono (by linarith), ?_⟩
      have := rq_mono (p := c - a) (q := 0) (by linarith)
      rwa [rq_zero] at this
  have z : ∀ {x : ℚ}, 0 ≤ x → 0 ≤ rq x := fun h => rq_nonneg h
  have z' : ∀ {x : ℚ}, x ≤ 0 → rq x ≤ 0 := fun h => by have := rq_mono h; rwa [rq_zero] at this
  have h2 : (0 ≤ rq (n * rq (c - a)) ∧ rq (n * rq (c - a)) ≤ rq (n * rq (b - a))) ∨
      (rq (n * rq (b - a)) ≤ rq (n * rq (c - a)) ∧ rq (n * rq (c - a)) ≤ 0) := by
    rcases le_total 0 n with hn | hn <;> rcases h1 with ⟨x, y⟩ | ⟨x, y⟩
    · exact Or.inl ⟨z (mul_nonneg hn x), rq_mono (mul_le_mul_of_nonneg_left y hn)⟩
    · exact Or.inr ⟨rq_mono (mul_le_mul_of_nonneg_left x hn), z' (mul_nonpos_of_nonneg_of_nonpos hn y)⟩
    · exact Or.inr ⟨rq_mono (mul_le_mul_of_nonpos_left y hn), z' (mul_nonpos_of_nonpos_of_nonneg hn x)⟩
    · exact Or.inl ⟨z (mul_nonneg_of_nonpos_of_nonpos hn y), rq_mono (mul_le_mul_of_nonpos_left x hn)⟩
  obtain ⟨h3, h4⟩ := frac_range h2
  unfold parR
  refine ⟨rq_nonneg h3, ?_⟩
  have := rq_mono h4
  rwa [rq_of_isRep (q := 1) (by simpa using isRep_two_pow 0)] at this

theorem par_ne {n a b : ℚ} (hn : 1 / 2 ^ 250 ≤ |n|) (hab : 1 / 2 ^ 250 ≤ |b - a|) : rq (n * rq (b - a)) ≠ 0 := by
  have h0 : b - a ≠ 0 := fun h => by
    rw [h, abs_zero] at hab
    exact absurd hab (not_le.2 (by positivity))
  have h0' : n ≠ 0 := fun h => by
    rw [h, abs_zero] at hn
    exact absurd hn (not_le.2 (by positivity))
  obtain ⟨h1, h2⟩ := rq_mul_sign (d := b - a) hn (Or.inr hab)
  intro h
  rw [h] at h1 h2
  simp only [lt_self_iff_false, false_iff, not_lt] at h1 h2
  exact (mul_ne_zero h0' h0) (le_antisymm h2 h1)

theorem par_err {n a b c : ℚ} (hrep : IsRep n) (hn : 1 / 2 ^ 250 ≤ |n|) (hab : 1 / 2 ^ 250 ≤ |b - a|)
    (h : (a ≤ c ∧ c ≤ b) ∨ (b ≤ c ∧ c ≤ a)) : |parR n a b c - (c - a) / (b - a)| ≤ 20 * u := by
  have hn0 : 0 < |n| := lt_of_lt_of_le (by positivity) hn
  have hab0 : 0 < |b - a| := lt_of_lt_of_le (by positivity) hab
  have hu := u_pos
  have hu' := u_le
  have h500 : (1 : ℚ) / 2 ^ 500 ≤ 1 / 2 ^ 250 := inv_pow_le (by norm_num)
  have hca : |c - a| ≤ |b - a| := by
    rcases h with ⟨x, y⟩ | ⟨x, y⟩
    · rw [abs_of_nonneg (by linarith), abs_of_nonneg (by linarith)]; linarith
    · rw [abs_of_nonpos (by linarith), abs_of_nonpos (by linarith)]; linarith
  have e1 := mul_err (x := n) (y := c - a) (R := |n|) (S := |b - a|) le_rfl hca (h500.trans hn) (h500.trans hab)
  have e2 := mul_err (x := n) (y := b - a) (R := |n|) (S := |b - a|) le_rfl le_rfl (h500.trans hn) (h500.trans hab)
  rw [rq_of_isRep hrep, ← abs_mul] at e1 e2
  have hk : 0 < |n * (b - a)| := by rw [abs_mul]; exact mul_pos hn0 hab0
  have key := hit_err hk e1 e2 (by positivity) (by linarith) (by linarith)
  have hne : n ≠ 0 := abs_pos.1 hn0
  have e3 : n * (c - a) / (n * (b - a)) = (c - a) / (b - a) := mul_div_mul_left _ _ hne
  rw [e3] at key
  have h1 : |(c - a) / (b - a)| ≤ 1 := by rw [abs_div]; exact div_le_one_of_le₀ hca (abs_nonneg _)
  unfold parR
  have h2 : 3 * (301 / 100 * u) * (1 + |(c - a) / (b - a)|) ≤ 3 * (301 / 100 * u) * 2 :=
    mul_le_mul_of_nonneg_left (by linarith) (by positivity)
  linarith

/-- A coordinate of the intersection, along the edge. -/
theorem along_fl {M n a b c : ℚ} (hM : 1 / 2 ^ 100 ≤ M) (hM' : M ≤ 2 ^ 199) (ha : |a| ≤ M) (hb : |b| ≤ M) (hrep : IsRep n)
    (hn : 1 / 2 ^ 250 ≤ |n|) (hab : 1 / 2 ^ 250 ≤ |b - a|) (h : (a ≤ c ∧ c ≤ b) ∨ (b ≤ c ∧ c ≤ a)) :
    ∃ p, fin a + fin (parR n a b c) * fin (rq (b - a)) = fin p ∧ |p - c| ≤ M / 2 ^ 47 + M / 2 ^ 49 := by
  obtain ⟨t0, t1⟩ := par_range (n := n) h
  obtain ⟨p, hp, he⟩ := toCoord_fl hM hM' ha hb t0 t1
  refine ⟨p, hp, ?_⟩
  have h1 := par_err hrep hn hab h
  have hab0 : b - a ≠ 0 := fun h => by
    rw [h, abs_zero] at hab
    exact absurd hab (not_le.2 (by positivity))
  have h2 : |b - a| ≤ 2 * M := (abs_sub _ _).trans (by linarith)
  have e : a + parR n a b c * (b - a) - c = (parR n a b c - (c - a) / (b - a)) * (b - a) := by
    field_simp
    ring
  have h3 : |a + parR n a b c * (b - a) - c| ≤ 20 * u * (2 * M) := by
    rw [e, abs_mul]
    exact mul_le_mul h1 h2 (abs_nonneg _) (by have := u_pos; positivity)
  have h4 : 20 * u * (2 * M) ≤ M / 2 ^ 47 := by
    have hM0 : 0 ≤ M := le_trans (by positivity) hM
    unfold u
    have : 20 * (1 / 2 ^ 53) * (2 * M) = (40 / 2 ^ 53) * M := by ring
    rw [this, div_eq_mul_one_div M, mul_comm M]
    exact mul_le_mul_of_nonneg_right (by norm_num) hM0
  calc |p - c| = |(p - (a + parR n a b c * (b - a))) + (a + parR n a b c * (b - a) - c)| := by ring_nf
    _ ≤ _ := abs_add_le _ _
    _ ≤ _ := by linarith

/-- A coordinate of the intersection, across the edge. -/
theorem across_fl {M a b τ : ℚ} (hM : 1 / 2 ^ 100 ≤ M) (hM' : M ≤ 2 ^ 199) (ra : IsRep a) (ha : |a| ≤ M) (hb : |b| ≤ M)
    (h0 : 0 ≤ τ) (h1 : τ ≤ 1) :
    ∃ p, fin a + fin τ * fin (rq (b - a)) = fin p ∧ (a = b → p = a) ∧
      ∀ T d, |a - T| ≤ d → |b - T| ≤ d → |p - T| ≤ d + M / 2 ^ 49 := by
  obtain ⟨p, hp, he⟩ := toCoord_fl hM hM' ha hb h0 h1
  refine ⟨p, hp, ?_, ?_⟩
  · rintro rfl
    have z : fin τ * fin (rq (a - a)) = fin 0 := by
      rw [sub_self, rq_zero, mul_fin (k := 0) (by norm_num) (by simp), mul_zero, rq_zero]
    rw [z, add_fin (k := 199) (by norm_num) (by rw [add_zero]; exact ha.trans hM'), add_zero, rq_of_isRep ra] at hp
    injection hp with hp
    exact hp.symm
  · intro T d h2 h3
    have e : a + τ * (b - a) - T = (1 - τ) * (a - T) + τ * (b - T) := by ring
    have h4 : |a + τ * (b - a) - T| ≤ d := by
      rw [e]
      calc |(1 - τ) * (a - T) + τ * (b - T)| ≤ |(1 - τ) * (a - T)| + |τ * (b - T)| := abs_add_le _ _
        _ ≤ (1 - τ) * d + τ * d := by
          rw [abs_mul, abs_mul, abs_of_nonneg h0, abs_of_nonneg (show 0 ≤ 1 - τ by linarith)]
          exact add_le_add (mul_le_mul_of_nonneg_left h2 (by linarith)) (mul_le_mul_of_nonneg_left h3 h0)
        _ = d := by ring
    calc |p - T| = |(p - (a + τ * (b - a))) + (a + τ * (b - a) - T)| := by ring_nf
      _ ≤ _ := abs_add_le _ _
      _ ≤ _ := by linarith

/-! ## Lines -/

/-- The coordinates exist in binary64 and are at most `B`. -/
def Crd (B : ℚ) (p : Pt ℚ) : Prop := (IsRep p.x ∧ |p.x| ≤ B) ∧ IsRep p.y ∧ |p.y| ≤ B

/-- What clipping by the line from `r` to `s` does: `m` is the coordinate across the line, which is at `m = c`, and `k` is the
coordinate along the line. The inner side is where `σ * m` is larger. -/
structure LineOk (M : ℚ) (r s : Pt Fl) (m k : Pt ℚ → ℚ) (σ c : ℚ) : Prop where
  dir : ((s.x - r.x == 0) && (s.y - r.y == 0)) = false
  inside : ∀ p, Crd (2 * M) p → (m p = c ∨ 1 / 2 ^ 250 ≤ |m p - c|) →
    shInside (fp p) r ⟨s.x - r.x, s.y - r.y⟩ = decide (0 < σ * (m p - c))
  cut : ∀ a b, Crd (2 * M) a → Crd (2 * M) b → (m a ≤ c ∧ c ≤ m b) ∨ (m b ≤ c ∧ c ≤ m a) → 1 / 2 ^ 250 ≤ |m b - m a| →
    ∃ p, shIntersection (fp a) ⟨(fp b).x - (fp a).x, (fp b).y - (fp a).y⟩ r ⟨-(s.y - r.y), s.x - r.x⟩ = .ok (some (fp p)) ∧
      IsRep p.x ∧ IsRep p.y ∧ |m p - c| ≤ M / 2 ^ 46 + M / 2 ^ 48 ∧ (k a = k b → k p = k a) ∧
      ∀ T d, |k a - T| ≤ d → |k b - T| ≤ d → |k p - T| ≤ d + M / 2 ^ 48

section
variable {M : ℚ} (hM : 1 / 2 ^ 100 ≤ M) (hM' : M ≤ 2 ^ 198)
include hM hM'

theorem two_M : 1 / 2 ^ 100 ≤ 2 * M ∧ 2 * M ≤ 2 ^ 199 := by
  have h0 : 0 ≤ M := le_trans (by positivity) hM
  refine ⟨by linarith, ?_⟩
  have : (2 : ℚ) ^ 199 = 2 * 2 ^ 198 := by rw [pow_succ]; ring
  linarith

theorem add_rep {x : Fl} {a b p : ℚ} (h : x = fin a + fin b) (hp : x = fin p) : IsRep p := by
  rw [hp, fin_add, rnd_eq] at h
  split at h
  · injection h with h; rw [h]; exact rq_isRep _
  · split at h <;> cases h

theorem mul_fin_or (a b : ℚ) : (∃ q, fin a * fin b = fin q) ∨ fin a * fin b = pinf ∨ fin a * fin b = ninf := by
  rw [fin_mul, rnd_eq]
  split
  · exact Or.inl ⟨_, rfl⟩
  · split
    · exact Or.inr (Or.inl rfl)
    · exact Or.inr (Or.inr rfl)

theorem sum_rep {a t v p : ℚ} (h : fin a + fin t * fin v = fin p) : IsRep p := by
  rcases mul_fin_or hM hM' t v with ⟨q, hq⟩ | hq | hq
  · rw [hq] at h; exact add_rep hM hM' rfl h
  · rw [hq] at h; cases h
  · rw [hq] at h; cases h

theorem dot_left {n wx wy : ℚ} (h1 : |wx| ≤ 2 ^ 300) (h2 : |n| ≤ 2 ^ 300) :
    fin n * fin wx + fin 0 * fin wy = fin (rq (n * wx)) := by
  have b := abs_mul_le_pow h2 h1
  have b' := abs_rq_le b
  rw [mul_fin (k := 300 + 300) (by norm_num) b, mul_fin (k := 0) (by norm_num) (by simp), zero_mul, rq_zero,
    add_fin (k := 300 + 300) (by norm_num) (by rwa [add_zero]), add_zero, rq_of_isRep (rq_isRep _)]

theorem dot_right {n wx wy : ℚ} (h1 : |wy| ≤ 2 ^ 300) (h2 : |n| ≤ 2 ^ 300) :
    fin 0 * fin wx + fin n * fin wy = fin (rq (n * wy)) := by
  have b := abs_mul_le_pow h2 h1
  have b' := abs_rq_le b
  rw [mul_fin (k := 300 + 300) (by norm_num) b, mul_fin (k := 0) (by norm_num) (by simp), zero_mul, rq_zero,
    add_fin (k := 300 + 300) (by norm_num) (by rwa [zero_add]), zero_add, rq_of_isRep (rq_isRep _)]

theorem diff_le {x y : ℚ} (hx : |x| ≤ 2 * M) (hy : |y| ≤ 2 * M) : |x - y| ≤ 2 ^ 200 ∧ |rq (x - y)| ≤ 2 ^ 200 := by
  have h := (two_M hM hM').2
  have := abs_sub_le_pow (hx.trans h) (hy.trans h)
  exact ⟨this, abs_rq_le this⟩

theorem diff_300 {x y : ℚ} (hx : |x| ≤ 2 * M) (hy : |y| ≤ 2 * M) : |rq (x - y)| ≤ 2 ^ 300 :=
  (diff_le hM hM' hx hy).2.trans (pow_le_pow_right₀ (by norm_num) (by norm_num))

theorem diff_fin {x y : ℚ} (hx : |x| ≤ 2 * M) (hy : |y| ≤ 2 * M) : fin x - fin y = fin (rq (x - y)) :=
  sub_fin (k := 200) (by norm_num) (diff_le hM hM' hx hy).1

theorem par_le {n a b c : ℚ} (h : (a ≤ c ∧ c ≤ b) ∨ (b ≤ c ∧ c ≤ a)) :
    |rq (n * rq (c - a)) / rq (n * rq (b - a))| ≤ 2 ^ 0 := by
  have h1 : (0 ≤ rq (c - a) ∧ rq (c - a) ≤ rq (b - a)) ∨ (rq (b - a) ≤ rq (c - a) ∧ rq (c - a) ≤ 0) := by
    rcases h with ⟨x, y⟩ | ⟨x, y⟩
    · exact Or.inl ⟨rq_nonneg (by linarith), rq_mono (by linarith)⟩
    · refine Or.inr ⟨rq_mono (by linarith), ?_⟩
      have := rq_mono (p := c - a) (q := 0) (by linarith)
      rwa [rq_zero] at this
  have h2 : |rq (c - a)| ≤ |rq (b - a)| := by
    rcases h1 with ⟨x, y⟩ | ⟨x, y⟩
    · rw [abs_of_nonneg x, abs_of_nonneg (x.trans y)]; exact y
    · rw [abs_of_nonpos y, abs_of_nonpos (x.trans y)]; linarith
  have h3 : |rq (n * rq (c - a))| ≤ |rq (n * rq (b - a))| := by
    rw [abs_rq, abs_rq, abs_mul, abs_mul]
    exact rq_mono (mul_le_mul_of_nonneg_left h2 (abs_nonneg _))
  rw [abs_div, pow_zero]
  exact div_le_one_of_le₀ h3 (abs_nonneg _)

theorem shIntersection_of {a V r N : Pt Fl} {nw nv : ℚ} (h1 : dot N ⟨r.x - a.x, r.y - a.y⟩ = fin nw) (h2 : dot N V = fin nv)
    (h0 : nv ≠ 0) (h3 : |nw / nv| ≤ 2 ^ 0) :
    shIntersection a V r N = .ok (some ⟨a.x + fin (rq (nw / nv)) * V.x, a.y + fin (rq (nw / nv)) * V.y⟩) := by
  unfold shIntersection
  simp only
  rw [h1, h2, zero_def, beq_fin, decide_eq_false h0]
  simp only [Bool.not_false, if_true]
  rw [fdiv_fin (k := 0) h0 (by norm_num) h3, ok_bind]

/-- A vertical line. -/
theorem lineOk_x {r s : Pt ℚ} {σ c : ℚ} (hr : Crd M r) (hs : Crd M s) (hx : r.x = c) (hx' : s.x = c)
    (hw : 1 / 2 ^ 200 ≤ |s.y - r.y|) (hσ : (σ = 1 ∧ s.y < r.y) ∨ (σ = -1 ∧ r.y < s.y)) :
    LineOk M (fp r) (fp s) (fun p => p.x) (fun p => p.y) σ c := by
  have hM0 : 0 ≤ M := le_trans (by positivity) hM
  have up : ∀ {x : ℚ}, |x| ≤ M → |x| ≤ 2 * M := fun h => by linarith
  have hc : |c| ≤ 2 * M := hx ▸ up hr.1.2
  have ex : fin s.x - fin r.x = fin 0 := by
    rw [diff_fin hM hM' (up hs.1.2) (up hr.1.2), hx, hx', sub_self, rq_zero]
  have ey : fin s.y - fin r.y = fin (rq (s.y - r.y)) := diff_fin hM hM' (up hs.2.2) (up hr.2.2)
  have hw' : 1 / 2 ^ 250 ≤ |rq (s.y - r.y)| := (inv_pow_le (by norm_num)).trans (le_abs_rq (by norm_num) hw)
  have hne : rq (s.y - r.y) ≠ 0 := fun h => by
    rw [h, abs_zero] at hw'
    exact absurd hw' (not_le.2 (by positivity))
  have hsg : (σ = 1 ∧ rq (s.y - r.y) < 0) ∨ (σ = -1 ∧ 0 < rq (s.y - r.y)) := by
    rcases hσ with ⟨h, h'⟩ | ⟨h, h'⟩
    · refine Or.inl ⟨h, lt_of_le_of_ne ?_ hne⟩
      have := rq_mono (p := s.y - r.y) (q := 0) (by linarith)
      rwa [rq_zero] at this
    · exact Or.inr ⟨h, lt_of_le_of_ne (rq_nonneg (by linarith)) (Ne.symm hne)⟩
  have h300 := diff_300 hM hM' (up hs.2.2) (up hr.2.2)
  refine ⟨?_, ?_, ?_⟩
  · show ((fin s.x - fin r.x == 0) && (fin s.y - fin r.y == 0)) = false
    rw [ex, ey, zero_def, beq_fin, beq_fin, decide_eq_false hne, Bool.and_false]
  · intro p hp hd
    show decide ((fin s.x - fin r.x) * (fin p.y - fin r.y) > (fin s.y - fin r.y) * (fin p.x - fin r.x)) = _
    rw [ex, ey, hx, diff_fin hM hM' hp.2.2 (up hr.2.2), diff_fin hM hM' hp.1.2 hc, mul_fin (k := 0) (by norm_num) (by simp),
      mul_fin (k := 300 + 300) (by norm_num) (abs_mul_le_pow h300 (diff_300 hM hM' hp.1.2 hc)), zero_mul, rq_zero]
    rw [decide_eq_decide, gt_iff_lt, lt_fin,
      (rq_mul_sign (d := p.x - c) hw' (hd.imp (fun h => by rw [h, sub_self]) id)).1]
    rcases hsg with ⟨rfl, h'⟩ | ⟨rfl, h'⟩
    · constructor <;> intro h <;> nlinarith
    · constructor <;> intro h <;> nlinarith
  · intro a b ha hb hbt hab
    have hpar := par_range (n := -rq (s.y - r.y)) hbt
    have hn : 1 / 2 ^ 250 ≤ |-rq (s.y - r.y)| := by rwa [abs_neg]
    obtain ⟨p, hp, hpe⟩ := along_fl (two_M hM hM').1 (two_M hM hM').2 ha.1.2 hb.1.2 (rq_isRep (s.y - r.y)).neg hn hab hbt
    obtain ⟨q, hq, hq1, hq2⟩ := across_fl (two_M hM hM').1 (two_M hM hM').2 ha.2.1 ha.2.2 hb.2.2 hpar.1 hpar.2
    refine ⟨⟨p, q⟩, ?_, sum_rep hM hM' hp, sum_rep hM hM' hq, ?_, hq1, ?_⟩
    · rw [shIntersection_of hM hM' (nw := rq (-rq (s.y - r.y) * rq (c - a.x))) (nv := rq (-rq (s.y - r.y) * rq (b.x - a.x)))
        ?_ ?_ (par_ne hn hab) (par_le hM hM' hbt)]
      · simp only [fp]
        rw [diff_fin hM hM' hb.1.2 ha.1.2, diff_fin hM hM' hb.2.2 ha.2.2]
        change Except.ok (some (⟨fin a.x + fin (parR _ _ _ _) * _, fin a.y + fin (parR _ _ _ _) * _⟩ : Pt Fl)) = _
        rw [hp, hq]
      · simp only [fp, dot]
        rw [ex, ey, hx, neg_fin, diff_fin hM hM' hc ha.1.2, diff_fin hM hM' (up hr.2.2) ha.2.2,
          dot_left hM hM' (diff_300 hM hM' hc ha.1.2) (by rw [abs_neg]; exact h300)]
      · simp only [fp, dot]
        rw [ex, ey, neg_fin, diff_fin hM hM' hb.1.2 ha.1.2, diff_fin hM hM' hb.2.2 ha.2.2,
          dot_left hM hM' (diff_300 hM hM' hb.1.2 ha.1.2) (by rw [abs_neg]; exact h300)]
    · refine hpe.trans (le_of_eq ?_)
      ring
    · intro T d h1 h2
      refine (hq2 T d h1 h2).trans (le_of_eq ?_)
      ring

/-- A horizontal line. -/
theorem lineOk_y {r s : Pt ℚ} {σ c : ℚ} (hr : Crd M r) (hs : Crd M s) (hx : r.y = c) (hx' : s.y = c)
    (hw : 1 / 2 ^ 200 ≤ |s.x - r.x|) (hσ : (σ = 1 ∧ r.x < s.x) ∨ (σ = -1 ∧ s.x < r.x)) :
    LineOk M (fp r) (fp s) (fun p => p.y) (fun p => p.x) σ c := by
  have hM0 : 0 ≤ M := le_trans (by positivity) hM
  have up : ∀ {x : ℚ}, |x| ≤ M → |x| ≤ 2 * M := fun h => by linarith
  have hc : |c| ≤ 2 * M := hx ▸ up hr.2.2
  have ex : fin s.y - fin r.y = fin 0 := by
    rw [diff_fin hM hM' (up hs.2.2) (up hr.2.2), hx, hx', sub_self, rq_zero]
  have ey : fin s.x - fin r.x = fin (rq (s.x - r.x)) := diff_fin hM hM' (up hs.1.2) (up hr.1.2)
  have hw' : 1 / 2 ^ 250 ≤ |rq (s.x - r.x)| := (inv_pow_le (by norm_num)).trans (le_abs_rq (by norm_num) hw)
  have hne : rq (s.x - r.x) ≠ 0 := fun h => by
    rw [h, abs_zero] at hw'
    exact absurd hw' (not_le.2 (by positivity))
  have hsg : (σ = 1 ∧ 0 < rq (s.x - r.x)) ∨ (σ = -1 ∧ rq (s.x - r.x) < 0) := by
    rcases hσ with ⟨h, h'⟩ | ⟨h, h'⟩
    · exact Or.inl ⟨h, lt_of_le_of_ne (rq_nonneg (by linarith)) (Ne.symm hne)⟩
    · refine Or.inr ⟨h, lt_of_le_of_ne ?_ hne⟩
      have := rq_mono (p := s.x - r.x) (q := 0) (by linarith)
      rwa [rq_zero] at this
  have h300 := diff_300 hM hM' (up hs.1.2) (up hr.1.2)
  refine ⟨?_, ?_, ?_⟩
  · show ((fin s.x - fin r.x == 0) && (fin s.y - fin r.y == 0)) = false
    rw [ex, ey, zero_def, beq_fin, beq_fin, decide_eq_false hne, Bool.false_and]
  · intro p hp hd
    show decide ((fin s.x - fin r.x) * (fin p.y - fin r.y) > (fin s.y - fin r.y) * (fin p.x - fin r.x)) = _
    rw [ex, ey, hx, diff_fin hM hM' hp.1.2 (up hr.1.2), diff_fin hM hM' hp.2.2 hc,
      mul_fin (k := 300 + 300) (by norm_num) (abs_mul_le_pow h300 (diff_300 hM hM' hp.2.2 hc)),
      mul_fin (k := 0) (by norm_num) (by simp), zero_mul, rq_zero]
    rw [decide_eq_decide, gt_iff_lt, lt_fin,
      (rq_mul_sign (d := p.y - c) hw' (hd.imp (fun h => by rw [h, sub_self]) id)).2]
    rcases hsg with ⟨rfl, h'⟩ | ⟨rfl, h'⟩
    · constructor <;> intro h <;> nlinarith
    · constructor <;> intro h <;> nlinarith
  · intro a b ha hb hbt hab
    have hpar := par_range (n := rq (s.x - r.x)) hbt
    obtain ⟨p, hp, hpe⟩ := along_fl (two_M hM hM').1 (two_M hM hM').2 ha.2.2 hb.2.2 (rq_isRep (s.x - r.x)) hw' hab hbt
    obtain ⟨q, hq, hq1, hq2⟩ := across_fl (two_M hM hM').1 (two_M hM hM').2 ha.1.1 ha.1.2 hb.1.2 hpar.1 hpar.2
    refine ⟨⟨q, p⟩, ?_, sum_rep hM hM' hq, sum_rep hM hM' hp, ?_, hq1, ?_⟩
    · rw [shIntersection_of hM hM' (nw := rq (rq (s.x - r.x) * rq (c - a.y))) (nv := rq (rq (s.x - r.x) * rq (b.y - a.y)))
        ?_ ?_ (par_ne hw' hab) (par_le hM hM' hbt)]
      · simp only [fp]
        rw [diff_fin hM hM' hb.1.2 ha.1.2, diff_fin hM hM' hb.2.2 ha.2.2]
        change Except.ok (some (⟨fin a.x + fin (parR _ _ _ _) * _, fin a.y + fin (parR _ _ _ _) * _⟩ : Pt Fl)) = _
        rw [hp, hq]
      · simp only [fp, dot]
        rw [ex, ey, hx, neg_fin, neg_zero, diff_fin hM hM' hc ha.2.2, diff_fin hM hM' (up hr.1.2) ha.1.2,
          dot_right hM hM' (diff_300 hM hM' hc ha.2.2) h300]
      · simp only [fp, dot]
        rw [ex, ey, neg_fin, neg_zero, diff_fin hM hM' hb.1.2 ha.1.2, diff_fin hM hM' hb.2.2 ha.2.2,
          dot_right hM hM' (diff_300 hM hM' hb.2.2 ha.2.2) h300]
    · refine hpe.trans (le_of_eq ?_)
      ring
    · intro T d h1 h2
      refine (hq2 T d h1 h2).trans (le_of_eq ?_)
      ring

end

end Celltree.Fl
