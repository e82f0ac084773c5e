import Verif.Proofs.AxisEdges
import Verif.Proofs.FloatNear
import Verif.Spec.FloatPieces

/-!
# Cohen-Sutherland in binary64, for segments that stay away from the corners of the box
-/

set_option linter.unusedSectionVars false

namespace Celltree.Fl

/-! ## Distances -/

theorem Within.mono {d d' : ℚ} {p q : Pt ℚ} (h : d ≤ d') (hp : Within d p q) : Within d' p q :=
  ⟨hp.1.trans h, hp.2.trans h⟩

theorem Within.trans {d d' : ℚ} {p q r : Pt ℚ} (h : Within d p q) (h' : Within d' q r) : Within (d + d') p r :=
  ⟨(abs_sub_le _ q.x _).trans (add_le_add h.1 h'.1), (abs_sub_le _ q.y _).trans (add_le_add h.2 h'.2)⟩

theorem Within.symm {d : ℚ} {p q : Pt ℚ} (h : Within d p q) : Within d q p :=
  ⟨by rw [abs_sub_comm]; exact h.1, by rw [abs_sub_comm]; exact h.2⟩

theorem within_self {d : ℚ} (h : 0 ≤ d) (p : Pt ℚ) : Within d p p := by
  constructor <;> rw [sub_self, abs_zero] <;> exact h

theorem Within.flip {d : ℚ} {p q : Pt ℚ} (h : Within d p q) : Within d ⟨p.y, p.x⟩ ⟨q.y, q.x⟩ := ⟨h.2, h.1⟩

/-- Points at the same place of two segments. -/
theorem Within.lineAt {d s : ℚ} {p q p' q' : Pt ℚ} (h0 : 0 ≤ s) (h1 : s ≤ 1) (hp : Within d p p') (hq : Within d q q') :
    Within d (lineAt p q s) (lineAt p' q' s) := by
  have key : ∀ x y x' y' : ℚ, |x - x'| ≤ d → |y - y'| ≤ d → |x + s * (y - x) - (x' + s * (y' - x'))| ≤ d := by
    intro x y x' y' hx hy
    rw [show x + s * (y - x) - (x' + s * (y' - x')) = (1 - s) * (x - x') + s * (y - y') by ring]
    calc |(1 - s) * (x - x') + s * (y - y')| ≤ |(1 - s) * (x - x')| + |s * (y - y')| := abs_add_le _ _
      _ = (1 - s) * |x - x'| + s * |y - y'| := by rw [abs_mul, abs_mul, abs_of_nonneg h0, abs_of_nonneg (sub_nonneg.2 h1)]
      _ ≤ (1 - s) * d + s * d :=
          add_le_add (mul_le_mul_of_nonneg_left hx (sub_nonneg.2 h1)) (mul_le_mul_of_nonneg_left hy h0)
      _ = d := by ring
  exact ⟨key _ _ _ _ hp.1 hq.1, key _ _ _ _ hp.2 hq.2⟩

theorem OnNear.mono {d d' : ℚ} {a b p : Pt ℚ} (h : d ≤ d') (hp : OnNear d a b p) : OnNear d' a b p := by
  obtain ⟨t, h0, h1, h2⟩ := hp
  exact ⟨t, h0, h1, h2.mono h⟩

theorem lineAt_mem01 {s t r : ℚ} (s0 : 0 ≤ s) (s1 : s ≤ 1) (t0 : 0 ≤ t) (t1 : t ≤ 1) (r0 : 0 ≤ r) (r1 : r ≤ 1) :
    0 ≤ s + r * (t - s) ∧ s + r * (t - s) ≤ 1 := by
  constructor <;> nlinarith [mul_nonneg r0 t0, mul_nonneg (sub_nonneg.2 r1) s0, mul_nonneg r0 (sub_nonneg.2 t1),
    mul_nonneg (sub_nonneg.2 r1) (sub_nonneg.2 s1)]

/-- The points between two points near a segment are near the segment. -/
theorem OnNear.between {d r : ℚ} {a b p q : Pt ℚ} (hp : OnNear d a b p) (hq : OnNear d a b q) (r0 : 0 ≤ r) (r1 : r ≤ 1) :
    OnNear d a b (Celltree.lineAt p q r) := by
  obtain ⟨s, s0, s1, hs⟩ := hp
  obtain ⟨t, t0, t1, ht⟩ := hq
  obtain ⟨h0, h1⟩ := lineAt_mem01 s0 s1 t0 t1 r0 r1
  refine ⟨_, h0, h1, ?_⟩
  rw [← lineAt_lineAt]
  exact Within.lineAt r0 r1 hs ht

theorem OnNear.flip {d : ℚ} {a b p : Pt ℚ} (h : OnNear d a b p) : OnNear d ⟨a.y, a.x⟩ ⟨b.y, b.x⟩ ⟨p.y, p.x⟩ := by
  obtain ⟨t, h0, h1, h2⟩ := h
  exact ⟨t, h0, h1, h2.flip⟩

theorem OnNear.trans {d e : ℚ} {a b p q w : Pt ℚ} (hp : OnNear d a b p) (hq : OnNear d a b q) (h : OnNear e p q w) :
    OnNear (e + d) a b w := by
  obtain ⟨t, h0, h1, h2⟩ := h
  obtain ⟨s, s0, s1, hs⟩ := OnNear.between hp hq h0 h1
  exact ⟨s, s0, s1, h2.trans hs⟩

theorem lineAt_le_of {x y t m : ℚ} (h0 : 0 ≤ t) (h1 : t ≤ 1) (hx : x ≤ m) (hy : y ≤ m) : x + t * (y - x) ≤ m := by
  nlinarith [mul_nonneg h0 (sub_nonneg.2 hy), mul_nonneg (sub_nonneg.2 h1) (sub_nonneg.2 hx)]

theorem le_lineAt_of {x y t m : ℚ} (h0 : 0 ≤ t) (h1 : t ≤ 1) (hx : m ≤ x) (hy : m ≤ y) : m ≤ x + t * (y - x) := by
  nlinarith [mul_nonneg h0 (sub_nonneg.2 hy), mul_nonneg (sub_nonneg.2 h1) (sub_nonneg.2 hx)]

theorem OnNear.bnd {d M : ℚ} {a b p : Pt ℚ} (ha : Bnd M a) (hb : Bnd M b) (h : OnNear d a b p) : Bnd (M + d) p := by
  obtain ⟨t, h0, h1, h2, h3⟩ := h
  have key : ∀ x y z : ℚ, |x| ≤ M → |y| ≤ M → |z - (x + t * (y - x))| ≤ d → |z| ≤ M + d := by
    intro x y z hx hy hz
    rw [abs_le] at *
    have := lineAt_le_of h0 h1 hx.2 hy.2
    have := le_lineAt_of h0 h1 hx.1 hy.1
    constructor <;> linarith
  exact ⟨key _ _ _ ha.1 hb.1 h2, key _ _ _ ha.2 hb.2 h3⟩

/-! ## Differences of usual coordinates -/

theorem usual_mult {M x : ℚ} (h : Usual M x) : ∃ m : Int, x = m * 2 ^ (-200 : Int) := by
  obtain ⟨⟨m, e, rfl, hm, he⟩, _, h⟩ := h
  rcases h with h | h
  · exact ⟨0, by rw [h]; simp⟩
  · have h1 : (2 : ℚ) ^ (-147 : Int) ≤ |(m : ℚ)| * 2 ^ e := by
      rw [abs_mul, abs_of_pos (two_zpow_pos e)] at h
      refine le_trans (le_of_eq ?_) h
      rw [zpow_neg, one_div]; norm_cast
    have h2 : |(m : ℚ)| < 2 ^ (53 : Int) := by
      have : ((|m| : Int) : ℚ) < ((2 ^ 53 : Int) : ℚ) := by exact_mod_cast hm
      rw [Int.cast_abs] at this
      refine lt_of_lt_of_eq this ?_
      norm_num
    have h3 : -200 ≤ e := by
      by_contra hcon
      push Not at hcon
      have h4 : (2 : ℚ) ^ e ≤ 2 ^ (-200 : Int) := two_zpow_le (by omega)
      have h5 : |(m : ℚ)| * 2 ^ e < 2 ^ (53 : Int) * 2 ^ (-200 : Int) :=
        lt_of_lt_of_le (mul_lt_mul_of_pos_right h2 (two_zpow_pos e)) (mul_le_mul_of_nonneg_left h4 (two_zpow_pos _).le)
      rw [← zpow_add₀ (by norm_num)] at h5
      norm_num at h5 h1
      linarith
    refine ⟨m * 2 ^ (e + 200).toNat, ?_⟩
    have : (e + 200).toNat = e + 200 := Int.toNat_of_nonneg (by omega)
    push_cast
    rw [mul_assoc, ← zpow_natCast, this, ← zpow_add₀ (by norm_num)]
    congr 2
    ring

theorem Usual.apart {M x y : ℚ} (hx : Usual M x) (hy : Usual M y) (h : x < y) : 1 / 2 ^ 200 ≤ y - x := by
  obtain ⟨m, rfl⟩ := usual_mult hx
  obtain ⟨n, rfl⟩ := usual_mult hy
  have hp := two_zpow_pos (-200)
  rw [← sub_mul]
  have h1 : (m : ℚ) < n := lt_of_mul_lt_mul_right h hp.le
  have h2 : (1 : ℚ) ≤ n - m := by
    have : m + 1 ≤ n := by exact_mod_cast h1
    have : ((m + 1 : Int) : ℚ) ≤ n := by exact_mod_cast this
    push_cast at this
    linarith
  have e : (1 : ℚ) / 2 ^ 200 = 2 ^ (-200 : Int) := by rw [zpow_neg, one_div]; norm_cast
  rw [e]
  exact le_mul_of_one_le_left hp.le h2

/-! ## One cut -/

/-- The computed coordinate at which the segment is cut. -/
def cutF (p q pl ql L : ℚ) : ℚ := rq (p + rq (rq (rq (q - p) * rq (L - pl)) / rq (ql - pl)))

/-- The error of a cut. -/
def cutErr (M : ℚ) : ℚ := 16 * u * M

theorem cut_err {M p q pl ql L : ℚ} (hM : 1 / 2 ^ 100 ≤ M) (hp : |p| ≤ 9 / 8 * M) (hq : |q| ≤ 9 / 8 * M)
    (hd : 1 / 2 ^ 200 ≤ |ql - pl|) (h0 : 0 ≤ (L - pl) / (ql - pl)) (h1 : (L - pl) / (ql - pl) ≤ 1) :
    |cutF p q pl ql L - (p + (L - pl) / (ql - pl) * (q - p))| ≤ cutErr M ∧
      |rq (q - p) * rq (L - pl) / rq (ql - pl)| ≤ 4 * M ∧
      |p + rq (rq (rq (q - p) * rq (L - pl)) / rq (ql - pl))| ≤ 2 * M := by
  have hu := u_pos
  have hu' := u_le
  have hM0 : 0 < M := lt_of_lt_of_le (by positivity) hM
  have hqp : |q - p| ≤ 9 / 4 * M := (abs_sub _ _).trans (by linarith)
  have hdd : 0 < |ql - pl| := lt_of_lt_of_le (by positivity) hd
  have hL : |L - pl| ≤ |ql - pl| := by
    rw [← div_le_one hdd, ← abs_div, abs_of_nonneg h0]; exact h1
  have e1 := ray_err hL hqp hd (((inv_pow_le (by norm_num)).trans hM).trans (by linarith))
  have e0 : (q - p) * (L - pl) / (ql - pl) = (L - pl) / (ql - pl) * (q - p) := by ring
  rw [e0] at e1
  set r := (L - pl) / (ql - pl) with hr
  set X := rq (rq (rq (q - p) * rq (L - pl)) / rq (ql - pl)) with hX
  have huM : 0 < u * M := mul_pos hu hM0
  have huM' : u * M ≤ 1 / 1000000 * M := mul_le_mul_of_nonneg_right hu' hM0.le
  have hC : |p + r * (q - p)| ≤ 9 / 8 * M := by
    rw [abs_le] at hp hq ⊢
    exact ⟨le_lineAt_of h0 h1 hp.1 hq.1, lineAt_le_of h0 h1 hp.2 hq.2⟩
  have hsum : |p + X| ≤ 9 / 8 * M + 27 / 2 * (u * M) := by
    calc |p + X| = |p + r * (q - p) + (X - r * (q - p))| := by ring_nf
      _ ≤ |p + r * (q - p)| + |X - r * (q - p)| := abs_add_le _ _
      _ ≤ 9 / 8 * M + 6 * u * (9 / 4 * M) := add_le_add hC e1
      _ = _ := by ring
  refine ⟨?_, ?_, by linarith⟩
  · have e2 := rq_abs (hsum.trans (show _ ≤ 10 / 8 * M by linarith))
      (((inv_pow_le (by norm_num)).trans hM).trans (by linarith))
    have : cutF p q pl ql L = rq (p + X) := rfl
    rw [this]
    calc |rq (p + X) - (p + r * (q - p))| = |(rq (p + X) - (p + X)) + (X - r * (q - p))| := by ring_nf
      _ ≤ u * (10 / 8 * M) + 6 * u * (9 / 4 * M) := (abs_add_le _ _).trans (add_le_add e2 e1)
      _ = 59 / 4 * (u * M) := by ring
      _ ≤ 16 * (u * M) := by linarith
      _ = cutErr M := by unfold cutErr; ring
  · have hY : |rq (L - pl)| ≤ |rq (ql - pl)| := by rw [abs_rq, abs_rq]; exact rq_mono hL
    have hY0 : 0 < |rq (ql - pl)| := lt_of_lt_of_le (by positivity) (le_abs_rq (k := 200) (by norm_num) hd)
    have hX' : |rq (q - p)| ≤ 4 * M := by
      have := rq_abs hqp (((inv_pow_le (by norm_num)).trans hM).trans (by linarith))
      calc |rq (q - p)| = |(rq (q - p) - (q - p)) + (q - p)| := by ring_nf
        _ ≤ u * (9 / 4 * M) + 9 / 4 * M := (abs_add_le _ _).trans (add_le_add this hqp)
        _ ≤ 4 * M := by linarith
    rw [abs_div, abs_mul, div_le_iff₀ hY0]
    exact mul_le_mul hX' hY (abs_nonneg _) (by linarith)

/-- The cut of `p q` at height `Y`. -/
def cutY (p q : Pt ℚ) (Y : ℚ) : Pt ℚ := ⟨cutF p.x q.x p.y q.y Y, Y⟩

/-- The cut of `p q` at the vertical line `X`. -/
def cutX (p q : Pt ℚ) (X : ℚ) : Pt ℚ := ⟨X, cutF p.y q.y p.x q.x X⟩

/-- What is needed for a cut: the level is between the ends, and they are not extremely close. -/
structure CutOk (M p q pl ql L : ℚ) : Prop where
  hp : |p| ≤ 9 / 8 * M
  hq : |q| ≤ 9 / 8 * M
  hd : 1 / 2 ^ 200 ≤ |ql - pl|
  h0 : 0 ≤ (L - pl) / (ql - pl)
  h1 : (L - pl) / (ql - pl) ≤ 1

theorem CutOk.ne {M p q pl ql L : ℚ} (h : CutOk M p q pl ql L) : ql - pl ≠ 0 :=
  abs_pos.1 (lt_of_lt_of_le (by positivity) h.hd)

section
variable {M : ℚ} (hM : 1 / 2 ^ 100 ≤ M)
include hM

theorem cutY_within {p q : Pt ℚ} {Y : ℚ} (h : CutOk M p.x q.x p.y q.y Y) :
    Within (cutErr M) (cutY p q Y) (lineAt p q ((Y - p.y) / (q.y - p.y))) := by
  have hM0 : 0 < M := lt_of_lt_of_le (by positivity) hM
  refine ⟨(cut_err hM h.hp h.hq h.hd h.h0 h.h1).1, ?_⟩
  have : (lineAt p q ((Y - p.y) / (q.y - p.y))).y = Y := by
    unfold lineAt
    simp only
    rw [div_mul_cancel₀ _ h.ne]; ring
  rw [this]
  unfold cutY cutErr
  rw [sub_self, abs_zero]
  exact mul_nonneg (mul_nonneg (by norm_num) u_pos.le) hM0.le

/-- The cut is near the segment. -/
theorem cutY_near {p q : Pt ℚ} {Y : ℚ} (h : CutOk M p.x q.x p.y q.y Y) : OnNear (cutErr M) p q (cutY p q Y) :=
  ⟨_, h.h0, h.h1, cutY_within hM h⟩

theorem cutErr_nonneg : 0 ≤ cutErr M :=
  mul_nonneg (mul_nonneg (by norm_num) u_pos.le) (le_trans (by positivity) hM)

/-- What is on the side of the second end is kept if the first end is cut off. -/
theorem cutY_keep_second {p q w : Pt ℚ} {Y d : ℚ} (h : CutOk M p.x q.x p.y q.y Y) (hw : OnNear d p q w)
    (hs : (q.y ≤ p.y ∧ w.y + d ≤ Y) ∨ (p.y ≤ q.y ∧ Y ≤ w.y - d)) : OnNear (d + cutErr M) (cutY p q Y) q w := by
  obtain ⟨s, s0, s1, hs1, hs2⟩ := hw
  set t := (Y - p.y) / (q.y - p.y) with ht
  have hne := h.ne
  have ey : (lineAt p q s).y - Y = (s - t) * (q.y - p.y) := by
    have : t * (q.y - p.y) = Y - p.y := by rw [ht, div_mul_cancel₀ _ hne]
    unfold lineAt; simp only; linarith
  rw [abs_le] at hs2
  have hts : t ≤ s := by
    by_contra hc
    push Not at hc
    rcases hs with ⟨h1, h2⟩ | ⟨h1, h2⟩
    · have h3 : q.y - p.y < 0 := lt_of_le_of_ne (by linarith) hne
      have := mul_pos_of_neg_of_neg (sub_neg.2 hc) h3
      linarith
    · have h3 : 0 < q.y - p.y := lt_of_le_of_ne (by linarith) (Ne.symm hne)
      have := mul_neg_of_neg_of_pos (sub_neg.2 hc) h3
      linarith
  have h1 := h.h1
  rw [← ht] at h1
  rcases eq_or_lt_of_le h1 with h1 | h1
  · -- the cut is at the second end
    have hs1' : s = 1 := le_antisymm s1 (h1 ▸ hts)
    subst hs1'
    refine ⟨1, zero_le_one, le_refl _, ?_⟩
    rw [lineAt_one] at hs1 hs2 ⊢
    exact Within.mono (by linarith [cutErr_nonneg hM]) ⟨hs1, abs_le.2 hs2⟩
  · obtain ⟨s', hs'0, hs'1, he⟩ : ∃ s', 0 ≤ s' ∧ s' ≤ 1 ∧ lineAt (lineAt p q t) q s' = lineAt p q s := by
      have h1' : 0 < 1 - t := sub_pos.2 h1
      refine ⟨(s - t) / (1 - t), div_nonneg (by linarith) h1'.le, by rw [div_le_one h1']; linarith, ?_⟩
      have : lineAt (lineAt p q t) (lineAt p q 1) ((s - t) / (1 - t)) = lineAt p q s := by
        rw [lineAt_lineAt, div_mul_cancel₀ _ h1'.ne']; congr 1; ring
      rwa [lineAt_one] at this
    refine ⟨s', hs'0, hs'1, ?_⟩
    have e1 : Within d w (lineAt (lineAt p q t) q s') := by rw [he]; exact ⟨hs1, abs_le.2 hs2⟩
    exact e1.trans (Within.lineAt hs'0 hs'1 (cutY_within hM h).symm (within_self (cutErr_nonneg hM) q))

/-- What is on the side of the first end is kept if the second end is cut off. -/
theorem cutY_keep_first {p q w : Pt ℚ} {Y d : ℚ} (h : CutOk M p.x q.x p.y q.y Y) (hw : OnNear d p q w)
    (hs : (p.y ≤ q.y ∧ w.y + d ≤ Y) ∨ (q.y ≤ p.y ∧ Y ≤ w.y - d)) : OnNear (d + cutErr M) p (cutY p q Y) w := by
  obtain ⟨s, s0, s1, hs1, hs2⟩ := hw
  set t := (Y - p.y) / (q.y - p.y) with ht
  have hne := h.ne
  have ey : (lineAt p q s).y - Y = (s - t) * (q.y - p.y) := by
    have : t * (q.y - p.y) = Y - p.y := by rw [ht, div_mul_cancel₀ _ hne]
    unfold lineAt; simp only; linarith
  rw [abs_le] at hs2
  have hts : s ≤ t := by
    by_contra hc
    push Not at hc
    rcases hs with ⟨h1, h2⟩ | ⟨h1, h2⟩
    · have h3 : 0 < q.y - p.y := lt_of_le_of_ne (by linarith) (Ne.symm hne)
      have := mul_pos (sub_pos.2 hc) h3
      linarith
    · have h3 : q.y - p.y < 0 := lt_of_le_of_ne (by linarith) hne
      have := mul_neg_of_pos_of_neg (sub_pos.2 hc) h3
      linarith
  have h0 := h.h0
  rw [← ht] at h0
  rcases eq_or_lt_of_le h0 with h0 | h0
  · have hs0' : s = 0 := le_antisymm (h0 ▸ hts) s0
    subst hs0'
    refine ⟨0, le_refl _, zero_le_one, ?_⟩
    rw [lineAt_zero] at hs1 hs2 ⊢
    exact Within.mono (by linarith [cutErr_nonneg hM]) ⟨hs1, abs_le.2 hs2⟩
  · obtain ⟨s', hs'0, hs'1, he⟩ : ∃ s', 0 ≤ s' ∧ s' ≤ 1 ∧ lineAt p (lineAt p q t) s' = lineAt p q s := by
      refine ⟨s / t, div_nonneg s0 h0.le, by rw [div_le_one h0]; exact hts, ?_⟩
      have : lineAt (lineAt p q 0) (lineAt p q t) (s / t) = lineAt p q s := by
        rw [lineAt_lineAt, sub_zero, div_mul_cancel₀ _ h0.ne', zero_add]
      rwa [lineAt_zero] at this
    refine ⟨s', hs'0, hs'1, ?_⟩
    have e1 : Within d w (lineAt p (lineAt p q t) s') := by rw [he]; exact ⟨hs1, abs_le.2 hs2⟩
    exact e1.trans (Within.lineAt hs'0 hs'1 (within_self (cutErr_nonneg hM) p) (cutY_within hM h).symm)

theorem cutX_near {p q : Pt ℚ} {X : ℚ} (h : CutOk M p.y q.y p.x q.x X) : OnNear (cutErr M) p q (cutX p q X) :=
  (cutY_near hM (p := ⟨p.y, p.x⟩) (q := ⟨q.y, q.x⟩) h).flip

theorem cutX_keep_second {p q w : Pt ℚ} {X d : ℚ} (h : CutOk M p.y q.y p.x q.x X) (hw : OnNear d p q w)
    (hs : (q.x ≤ p.x ∧ w.x + d ≤ X) ∨ (p.x ≤ q.x ∧ X ≤ w.x - d)) : OnNear (d + cutErr M) (cutX p q X) q w :=
  (cutY_keep_second hM (p := ⟨p.y, p.x⟩) (q := ⟨q.y, q.x⟩) h hw.flip hs).flip

theorem cutX_keep_first {p q w : Pt ℚ} {X d : ℚ} (h : CutOk M p.y q.y p.x q.x X) (hw : OnNear d p q w)
    (hs : (p.x ≤ q.x ∧ w.x + d ≤ X) ∨ (q.x ≤ p.x ∧ X ≤ w.x - d)) : OnNear (d + cutErr M) p (cutX p q X) w :=
  (cutY_keep_first hM (p := ⟨p.y, p.x⟩) (q := ⟨q.y, q.x⟩) h hw.flip hs).flip

/-- The cut, as computed. -/
theorem cut_fl (hM' : M ≤ 2 ^ 199) {p q pl ql L : ℚ} (h : CutOk M p q pl ql L) (hL : |L| ≤ 2 ^ 200)
    (hpl : |pl| ≤ 2 ^ 200) :
    fdiv (fin (rq (q - p)) * (fin L - fin pl)) (fin (rq (ql - pl))) =
        .ok (fin (rq (rq (rq (q - p) * rq (L - pl)) / rq (ql - pl)))) ∧
      fin p + fin (rq (rq (rq (q - p) * rq (L - pl)) / rq (ql - pl))) = fin (cutF p q pl ql L) := by
  obtain ⟨_, e2, e3⟩ := cut_err hM h.hp h.hq h.hd h.h0 h.h1
  have h200 : 9 / 8 * M ≤ 2 ^ 200 := by
    have : (2 : ℚ) ^ 200 = 2 * 2 ^ 199 := by ring
    rw [this]
    have : (0 : ℚ) < 2 ^ 199 := by positivity
    linarith
  have b1 : |q - p| ≤ 2 ^ 201 := abs_sub_le_pow (k := 200) (h.hq.trans h200) (h.hp.trans h200)
  have b2 : |L - pl| ≤ 2 ^ 201 := abs_sub_le_pow (k := 200) hL hpl
  have b3 : |rq (q - p) * rq (L - pl)| ≤ 2 ^ 402 := abs_mul_le_pow (j := 201) (k := 201) (abs_rq_le b1) (abs_rq_le b2)
  have hd := le_abs_rq (k := 200) (by norm_num) h.hd
  have b4 : rq (ql - pl) ≠ 0 := abs_pos.1 (lt_of_lt_of_le (by positivity) hd)
  have b5 : |rq (rq (q - p) * rq (L - pl)) / rq (ql - pl)| ≤ 2 ^ 602 := by
    rw [abs_div, div_le_iff₀ (abs_pos.2 b4)]
    calc |rq (rq (q - p) * rq (L - pl))| ≤ 2 ^ 402 := abs_rq_le b3
      _ = 2 ^ 602 * (1 / 2 ^ 200) := by rw [mul_one_div, eq_div_iff (by positivity)]; rw [← pow_add]
      _ ≤ _ := mul_le_mul_of_nonneg_left hd (by positivity)
  constructor
  · rw [sub_fin (k := 201) (by norm_num) b2, mul_fin (k := 402) (by norm_num) b3, fdiv_fin b4 (k := 602) (by norm_num) b5]
  · have h201 : 2 * M ≤ 2 ^ 201 := by
      have : (2 : ℚ) ^ 201 = 4 * 2 ^ 199 := by ring
      rw [this]
      have : (0 : ℚ) < 2 ^ 199 := by positivity
      linarith
    rw [add_fin (k := 201) (by norm_num) (e3.trans h201)]
    rfl

end

/-! ## The state of the loop -/

/-- The least distance the code may divide by. -/
def tiny : ℚ := 1 / 2 ^ 200

theorem tiny_pos : 0 < tiny := by unfold tiny; positivity

theorem cutOk_of {M P Q pl ql L : ℚ} (hP : |P| ≤ 9 / 8 * M) (hQ : |Q| ≤ 9 / 8 * M)
    (h : (pl + tiny ≤ L ∧ L ≤ ql) ∨ (L + tiny ≤ pl ∧ ql ≤ L) ∨ (ql + tiny ≤ L ∧ L ≤ pl) ∨ (L + tiny ≤ ql ∧ pl ≤ L)) :
    CutOk M P Q pl ql L := by
  have ht := tiny_pos
  have key : (tiny ≤ ql - pl ∧ 0 ≤ L - pl ∧ L - pl ≤ ql - pl) ∨ (tiny ≤ pl - ql ∧ L - pl ≤ 0 ∧ ql - pl ≤ L - pl) := by
    rcases h with ⟨h1, h2⟩ | ⟨h1, h2⟩ | ⟨h1, h2⟩ | ⟨h1, h2⟩
    · left; exact ⟨by linarith, by linarith, by linarith⟩
    · right; exact ⟨by linarith, by linarith, by linarith⟩
    · right; exact ⟨by linarith, by linarith, by linarith⟩
    · left; exact ⟨by linarith, by linarith, by linarith⟩
  rcases key with ⟨h1, h2, h3⟩ | ⟨h1, h2, h3⟩
  · have h4 : 0 < ql - pl := lt_of_lt_of_le ht h1
    exact ⟨hP, hQ, h1.trans (le_abs_self _), div_nonneg h2 h4.le, (div_le_one h4).2 h3⟩
  · have h4 : ql - pl < 0 := by linarith
    refine ⟨hP, hQ, ?_, div_nonneg_of_nonpos h2 h4.le, (div_le_one_of_neg h4).2 h3⟩
    have : tiny ≤ |pl - ql| := h1.trans (le_abs_self _)
    rwa [abs_sub_comm] at this

/-- If the point is outside the box, it is at least a tiny distance outside. -/
structure Far (c : Box ℚ) (p : Pt ℚ) : Prop where
  xmax : c.xmax < p.x → c.xmax + tiny ≤ p.x
  xmin : p.x < c.xmin → p.x + tiny ≤ c.xmin
  ymax : c.ymax < p.y → c.ymax + tiny ≤ p.y
  ymin : p.y < c.ymin → p.y + tiny ≤ c.ymin

theorem far_usual {M : ℚ} {c : Box ℚ} {p : Pt ℚ} (hc : UsualBox M c) (hp : UsualPt M p) : Far c p where
  xmax h := by have := hc.xmax.apart hp.1 h; unfold tiny; linarith
  xmin h := by have := hp.1.apart hc.xmin h; unfold tiny; linarith
  ymax h := by have := hc.ymax.apart hp.2 h; unfold tiny; linarith
  ymin h := by have := hp.2.apart hc.ymin h; unfold tiny; linarith

/-- What is known during the loop: both ends are near the segment, and the points of the segment deep inside the
box are near what is left. -/
structure Fit (M : ℚ) (c : Box ℚ) (a b : Pt ℚ) (d : ℚ) (p q : Pt ℚ) : Prop where
  np : OnNear d a b p
  nq : OnNear d a b q
  rp : IsRep p.x ∧ IsRep p.y
  rq' : IsRep q.x ∧ IsRep q.y
  fp : Far c p
  fq : Far c q
  keep : ∀ w, Deep (8 * cutErr M) c w → OnNear 0 a b w → OnNear d p q w

/-- What the clipping says about the segment. -/
def ClipGood (M : ℚ) (c : Box ℚ) (a b : Pt ℚ) (r : Clip Fl) : Prop :=
  (∀ w, Deep (8 * cutErr M) c w → OnNear 0 a b w → r ≠ none) ∧
    (r ≠ none → ∃ t : ℚ, 0 ≤ t ∧ t ≤ 1 ∧ NearBox (4 * cutErr M) c (lineAt a b t))

section
variable {M : ℚ} {c : Box ℚ} {a b : Pt ℚ} (hM : 1 / 2 ^ 100 ≤ M) (hM' : M ≤ 2 ^ 199) (hc : UsualBox M c) (ha : UsualPt M a)
  (hb : UsualPt M b) (hav : AvoidsCorners M c a b)
include hM hM' hc ha hb hav

theorem cutErr_eq : 8 * cutErr M = M / 2 ^ 46 := by
  unfold cutErr u
  rw [show (2 : ℚ) ^ 53 = 128 * 2 ^ 46 by norm_num]
  field_simp
  norm_num

theorem tiny_le : tiny ≤ cutErr M := by
  have h := cutErr_eq hM hM' hc ha hb hav
  have h2 : (1 : ℚ) / 2 ^ 146 ≤ M / 2 ^ 46 := by
    rw [show (2 : ℚ) ^ 146 = 2 ^ 100 * 2 ^ 46 by rw [← pow_add], ← div_div]
    exact div_le_div_of_nonneg_right hM (by positivity)
  have h3 : 8 * tiny ≤ 1 / 2 ^ 146 := by
    unfold tiny
    rw [mul_one_div, div_le_div_iff₀ (by positivity) (by positivity)]
    norm_num
  linarith

/-- A point near the segment and on the line of one side of the box is away from the corners. -/
theorem off_corner {d : ℚ} (hd : d ≤ 4 * cutErr M) {p v : Pt ℚ} (hp : OnNear d a b p) (hv : v ∈ corners c) :
    ¬ Within (4 * cutErr M) v p := by
  intro h
  obtain ⟨t, h0, h1, h2⟩ := hp
  refine hav v hv ⟨t, h0, h1, ?_⟩
  rw [← cutErr_eq hM hM' hc ha hb hav]
  exact (h.trans h2).mono (by linarith)

theorem off_x {d : ℚ} (hd : d ≤ 4 * cutErr M) {x X Y : ℚ} (hp : OnNear d a b ⟨x, Y⟩) (hX : X = c.xmin ∨ X = c.xmax)
    (hY : Y = c.ymin ∨ Y = c.ymax) : 4 * cutErr M < |X - x| := by
  by_contra hcon
  push Not at hcon
  refine off_corner hM hM' hc ha hb hav hd hp (v := ⟨X, Y⟩) ?_ ⟨hcon, ?_⟩
  · rcases hX with rfl | rfl <;> rcases hY with rfl | rfl <;> simp [corners]
  · simp only [sub_self, abs_zero]
    have := cutErr_nonneg hM
    linarith

theorem off_y {d : ℚ} (hd : d ≤ 4 * cutErr M) {y X Y : ℚ} (hp : OnNear d a b ⟨X, y⟩) (hX : X = c.xmin ∨ X = c.xmax)
    (hY : Y = c.ymin ∨ Y = c.ymax) : 4 * cutErr M < |Y - y| := by
  by_contra hcon
  push Not at hcon
  refine off_corner hM hM' hc ha hb hav hd hp (v := ⟨X, Y⟩) ?_ ⟨?_, hcon⟩
  · rcases hX with rfl | rfl <;> rcases hY with rfl | rfl <;> simp [corners]
  · simp only [sub_self, abs_zero]
    have := cutErr_nonneg hM
    linarith

theorem far_cutY {d : ℚ} (hd : d ≤ 4 * cutErr M) {x Y : ℚ} (hp : OnNear d a b ⟨x, Y⟩) (hY : Y = c.ymin ∨ Y = c.ymax) :
    Far c ⟨x, Y⟩ := by
  have ht := tiny_le hM hM' hc ha hb hav
  have ht0 := tiny_pos
  have h1 := off_x hM hM' hc ha hb hav hd hp (X := c.xmin) (Or.inl rfl) hY
  have h2 := off_x hM hM' hc ha hb hav hd hp (X := c.xmax) (Or.inr rfl) hY
  have := hc.hy
  refine ⟨fun h => ?_, fun h => ?_, fun h => ?_, fun h => ?_⟩ <;> simp only at h ⊢
  · rw [abs_of_neg (by linarith)] at h2; linarith
  · rw [abs_of_pos (by linarith)] at h1; linarith
  · rcases hY with rfl | rfl <;> linarith
  · rcases hY with rfl | rfl <;> linarith

theorem far_cutX {d : ℚ} (hd : d ≤ 4 * cutErr M) {y X : ℚ} (hp : OnNear d a b ⟨X, y⟩) (hX : X = c.xmin ∨ X = c.xmax) :
    Far c ⟨X, y⟩ := by
  have ht := tiny_le hM hM' hc ha hb hav
  have ht0 := tiny_pos
  have h1 := off_y hM hM' hc ha hb hav hd hp (Y := c.ymin) hX (Or.inl rfl)
  have h2 := off_y hM hM' hc ha hb hav hd hp (Y := c.ymax) hX (Or.inr rfl)
  have := hc.hx
  refine ⟨fun h => ?_, fun h => ?_, fun h => ?_, fun h => ?_⟩ <;> simp only at h ⊢
  · rcases hX with rfl | rfl <;> linarith
  · rcases hX with rfl | rfl <;> linarith
  · rw [abs_of_neg (by linarith)] at h2; linarith
  · rw [abs_of_pos (by linarith)] at h1; linarith

theorem Fit.bnd {d : ℚ} (hd : d ≤ 4 * cutErr M) {p q : Pt ℚ} (h : Fit M c a b d p q) :
    (|p.x| ≤ 9 / 8 * M ∧ |p.y| ≤ 9 / 8 * M) ∧ |q.x| ≤ 9 / 8 * M ∧ |q.y| ≤ 9 / 8 * M := by
  have hM0 : 0 < M := lt_of_lt_of_le (by positivity) hM
  have hd' : M + d ≤ 9 / 8 * M := by
    have := cutErr_eq hM hM' hc ha hb hav
    have h3 : M / 2 ^ 46 ≤ M / 8 := div_le_div_of_nonneg_left hM0.le (by norm_num) (by norm_num)
    have := cutErr_nonneg hM
    linarith
  have h1 := OnNear.bnd (M := M) ⟨ha.1.2.1, ha.2.2.1⟩ ⟨hb.1.2.1, hb.2.2.1⟩ h.np
  have h2 := OnNear.bnd (M := M) ⟨ha.1.2.1, ha.2.2.1⟩ ⟨hb.1.2.1, hb.2.2.1⟩ h.nq
  exact ⟨⟨h1.1.trans hd', h1.2.trans hd'⟩, h2.1.trans hd', h2.2.trans hd'⟩

/-- Cutting off the first end at the lower or upper side. -/
theorem Fit.cutY1 {d : ℚ} (hd : d ≤ 3 * cutErr M) {p q : Pt ℚ} (h : Fit M c a b d p q) {Y : ℚ}
    (hY : (p.y < c.ymin ∧ Y = c.ymin ∧ c.ymin ≤ q.y) ∨ (c.ymax < p.y ∧ Y = c.ymax ∧ q.y ≤ c.ymax)) :
    CutOk M p.x q.x p.y q.y Y ∧ Fit M c a b (d + cutErr M) (cutY p q Y) q := by
  have he := cutErr_nonneg hM
  obtain ⟨hp, hq⟩ := h.bnd hM hM' hc ha hb hav (by linarith)
  have hk : CutOk M p.x q.x p.y q.y Y := by
    refine cutOk_of hp.1 hq.1 ?_
    rcases hY with ⟨h1, rfl, h2⟩ | ⟨h1, rfl, h2⟩
    · left; exact ⟨h.fp.ymin h1, h2⟩
    · right; left; exact ⟨h.fp.ymax h1, h2⟩
  have hY' : Y = c.ymin ∨ Y = c.ymax := by rcases hY with ⟨_, rfl, _⟩ | ⟨_, rfl, _⟩ <;> simp
  have hn : OnNear (d + cutErr M) a b (cutY p q Y) := by rw [add_comm]; exact OnNear.trans h.np h.nq (cutY_near hM hk)
  refine ⟨hk, hn, h.nq.mono (by linarith), ⟨rq_isRep _, ?_⟩, h.rq', far_cutY hM hM' hc ha hb hav (by linarith) hn hY', h.fq, ?_⟩
  · rcases hY' with rfl | rfl
    · exact hc.ymin.1
    · exact hc.ymax.1
  · intro w hw hw'
    refine cutY_keep_second hM hk (h.keep w hw hw') ?_
    obtain ⟨_, _, w3, w4⟩ := hw
    rcases hY with ⟨h1, rfl, h2⟩ | ⟨h1, rfl, h2⟩
    · right; exact ⟨by linarith, by linarith⟩
    · left; exact ⟨by linarith, by linarith⟩

/-- Cutting off the second end at the lower or upper side. -/
theorem Fit.cutY2 {d : ℚ} (hd : d ≤ 3 * cutErr M) {p q : Pt ℚ} (h : Fit M c a b d p q) {Y : ℚ}
    (hY : (q.y < c.ymin ∧ Y = c.ymin ∧ c.ymin ≤ p.y) ∨ (c.ymax < q.y ∧ Y = c.ymax ∧ p.y ≤ c.ymax)) :
    CutOk M p.x q.x p.y q.y Y ∧ Fit M c a b (d + cutErr M) p (cutY p q Y) := by
  have he := cutErr_nonneg hM
  obtain ⟨hp, hq⟩ := h.bnd hM hM' hc ha hb hav (by linarith)
  have hk : CutOk M p.x q.x p.y q.y Y := by
    refine cutOk_of hp.1 hq.1 ?_
    rcases hY with ⟨h1, rfl, h2⟩ | ⟨h1, rfl, h2⟩
    · right; right; left; exact ⟨h.fq.ymin h1, h2⟩
    · right; right; right; exact ⟨h.fq.ymax h1, h2⟩
  have hY' : Y = c.ymin ∨ Y = c.ymax := by rcases hY with ⟨_, rfl, _⟩ | ⟨_, rfl, _⟩ <;> simp
  have hn : OnNear (d + cutErr M) a b (cutY p q Y) := by rw [add_comm]; exact OnNear.trans h.np h.nq (cutY_near hM hk)
  refine ⟨hk, h.np.mono (by linarith), hn, h.rp, ⟨rq_isRep _, ?_⟩, h.fp, far_cutY hM hM' hc ha hb hav (by linarith) hn hY', ?_⟩
  · rcases hY' with rfl | rfl
    · exact hc.ymin.1
    · exact hc.ymax.1
  · intro w hw hw'
    refine cutY_keep_first hM hk (h.keep w hw hw') ?_
    obtain ⟨_, _, w3, w4⟩ := hw
    rcases hY with ⟨h1, rfl, h2⟩ | ⟨h1, rfl, h2⟩
    · right; exact ⟨by linarith, by linarith⟩
    · left; exact ⟨by linarith, by linarith⟩

/-- Cutting off the first end at the left or right side. -/
theorem Fit.cutX1 {d : ℚ} (hd : d ≤ 3 * cutErr M) {p q : Pt ℚ} (h : Fit M c a b d p q) {X : ℚ}
    (hX : (p.x < c.xmin ∧ X = c.xmin ∧ c.xmin ≤ q.x) ∨ (c.xmax < p.x ∧ X = c.xmax ∧ q.x ≤ c.xmax)) :
    CutOk M p.y q.y p.x q.x X ∧ Fit M c a b (d + cutErr M) (cutX p q X) q := by
  have he := cutErr_nonneg hM
  obtain ⟨hp, hq⟩ := h.bnd hM hM' hc ha hb hav (by linarith)
  have hk : CutOk M p.y q.y p.x q.x X := by
    refine cutOk_of hp.2 hq.2 ?_
    rcases hX with ⟨h1, rfl, h2⟩ | ⟨h1, rfl, h2⟩
    · left; exact ⟨h.fp.xmin h1, h2⟩
    · right; left; exact ⟨h.fp.xmax h1, h2⟩
  have hX' : X = c.xmin ∨ X = c.xmax := by rcases hX with ⟨_, rfl, _⟩ | ⟨_, rfl, _⟩ <;> simp
  have hn : OnNear (d + cutErr M) a b (cutX p q X) := by rw [add_comm]; exact OnNear.trans h.np h.nq (cutX_near hM hk)
  refine ⟨hk, hn, h.nq.mono (by linarith), ⟨?_, rq_isRep _⟩, h.rq', far_cutX hM hM' hc ha hb hav (by linarith) hn hX', h.fq, ?_⟩
  · rcases hX' with rfl | rfl
    · exact hc.xmin.1
    · exact hc.xmax.1
  · intro w hw hw'
    refine cutX_keep_second hM hk (h.keep w hw hw') ?_
    obtain ⟨w3, w4, _, _⟩ := hw
    rcases hX with ⟨h1, rfl, h2⟩ | ⟨h1, rfl, h2⟩
    · right; exact ⟨by linarith, by linarith⟩
    · left; exact ⟨by linarith, by linarith⟩

/-- Cutting off the second end at the left or right side. -/
theorem Fit.cutX2 {d : ℚ} (hd : d ≤ 3 * cutErr M) {p q : Pt ℚ} (h : Fit M c a b d p q) {X : ℚ}
    (hX : (q.x < c.xmin ∧ X = c.xmin ∧ c.xmin ≤ p.x) ∨ (c.xmax < q.x ∧ X = c.xmax ∧ p.x ≤ c.xmax)) :
    CutOk M p.y q.y p.x q.x X ∧ Fit M c a b (d + cutErr M) p (cutX p q X) := by
  have he := cutErr_nonneg hM
  obtain ⟨hp, hq⟩ := h.bnd hM hM' hc ha hb hav (by linarith)
  have hk : CutOk M p.y q.y p.x q.x X := by
    refine cutOk_of hp.2 hq.2 ?_
    rcases hX with ⟨h1, rfl, h2⟩ | ⟨h1, rfl, h2⟩
    · right; right; left; exact ⟨h.fq.xmin h1, h2⟩
    · right; right; right; exact ⟨h.fq.xmax h1, h2⟩
  have hX' : X = c.xmin ∨ X = c.xmax := by rcases hX with ⟨_, rfl, _⟩ | ⟨_, rfl, _⟩ <;> simp
  have hn : OnNear (d + cutErr M) a b (cutX p q X) := by rw [add_comm]; exact OnNear.trans h.np h.nq (cutX_near hM hk)
  refine ⟨hk, h.np.mono (by linarith), hn, h.rp, ⟨?_, rq_isRep _⟩, h.fp, far_cutX hM hM' hc ha hb hav (by linarith) hn hX', ?_⟩
  · rcases hX' with rfl | rfl
    · exact hc.xmin.1
    · exact hc.xmax.1
  · intro w hw hw'
    refine cutX_keep_first hM hk (h.keep w hw hw') ?_
    obtain ⟨w3, w4, _, _⟩ := hw
    rcases hX with ⟨h1, rfl, h2⟩ | ⟨h1, rfl, h2⟩
    · right; exact ⟨by linarith, by linarith⟩
    · left; exact ⟨by linarith, by linarith⟩

/-! ## Ends of the loop -/

theorem cutErr_pos : 0 < cutErr M := lt_of_lt_of_le tiny_pos (tiny_le hM hM' hc ha hb hav)

theorem Fit.some_good {d : ℚ} (hd : d ≤ 4 * cutErr M) {p q : Pt ℚ} (h : Fit M c a b d p q)
    (hx : c.xmin ≤ p.x ∧ p.x ≤ c.xmax) (hy : c.ymin ≤ p.y ∧ p.y ≤ c.ymax) (r : Pt Fl × Pt Fl) :
    ClipGood M c a b (some r) := by
  refine ⟨by simp, fun _ => ?_⟩
  obtain ⟨t, h0, h1, h2, h3⟩ := h.np
  rw [abs_le] at h2 h3
  exact ⟨t, h0, h1, by linarith, by linarith, by linarith, by linarith⟩

/-- Nothing is lost if what is left is on one side of the box. -/
theorem Fit.none_good {d : ℚ} (hd : d ≤ 4 * cutErr M) {p q : Pt ℚ} (h : Fit M c a b d p q)
    (hs : (p.x ≤ c.xmin ∧ q.x ≤ c.xmin) ∨ (c.xmax ≤ p.x ∧ c.xmax ≤ q.x) ∨ (p.y ≤ c.ymin ∧ q.y ≤ c.ymin) ∨
      (c.ymax ≤ p.y ∧ c.ymax ≤ q.y)) : ClipGood M c a b none := by
  have he := cutErr_pos hM hM' hc ha hb hav
  refine ⟨fun w hw hw' => ?_, by simp⟩
  exfalso
  obtain ⟨t, h0, h1, h2, h3⟩ := h.keep w hw hw'
  obtain ⟨w1, w2, w3, w4⟩ := hw
  rw [abs_le] at h2 h3
  unfold lineAt at h2 h3
  simp only at h2 h3
  rcases hs with ⟨h4, h5⟩ | ⟨h4, h5⟩ | ⟨h4, h5⟩ | ⟨h4, h5⟩
  · have := lineAt_le_of h0 h1 h4 h5; linarith
  · have := le_lineAt_of h0 h1 h4 h5; linarith
  · have := lineAt_le_of h0 h1 h4 h5; linarith
  · have := le_lineAt_of h0 h1 h4 h5; linarith

theorem Fit.modPt {d : ℚ} (hd : d ≤ 4 * cutErr M) {p q : Pt ℚ} (h : Fit M c a b d p q) : ModPt p ∧ ModPt q := by
  have h200 : 9 / 8 * M ≤ 2 ^ 200 := by
    have : (2 : ℚ) ^ 200 = 2 * 2 ^ 199 := by ring
    rw [this]
    have : (0 : ℚ) < 2 ^ 199 := by positivity
    linarith
  obtain ⟨hp, hq⟩ := h.bnd hM hM' hc ha hb hav hd
  exact ⟨⟨⟨h.rp.1, hp.1.trans h200⟩, h.rp.2, hp.2.trans h200⟩, ⟨h.rq'.1, hq.1.trans h200⟩, h.rq'.2, hq.2.trans h200⟩

theorem UsualBox.lev : (|c.xmin| ≤ 2 ^ 200 ∧ |c.xmax| ≤ 2 ^ 200) ∧ |c.ymin| ≤ 2 ^ 200 ∧ |c.ymax| ≤ 2 ^ 200 := by
  have h : M ≤ 2 ^ 200 := hM'.trans (pow_le_pow_right₀ (by norm_num) (by norm_num))
  exact ⟨⟨hc.xmin.2.1.trans h, hc.xmax.2.1.trans h⟩, hc.ymin.2.1.trans h, hc.ymax.2.1.trans h⟩

/-! ## The steps of the loop -/

/-- The loop, from a pair of ends. -/
abbrev loopFrom (c : Box ℚ) (n : Nat) (p q : Pt ℚ) (k1 k2 : Nat) : Celltree.M (Clip Fl) :=
  csLoop (fbox c) n (Fl.fp p) (Fl.fp q) k1 k2 ((Fl.fp q).x - (Fl.fp p).x) ((Fl.fp q).y - (Fl.fp p).y)

theorem csCut_y {d : ℚ} (hd : d ≤ 4 * cutErr M) {p q : Pt ℚ} (h : Fit M c a b d p q) {Y : ℚ}
    (hk : CutOk M p.x q.x p.y q.y Y) {k : Nat}
    (hs : (k &&& 8 ≠ 0 ∧ Y = c.ymax) ∨ (k &&& 8 = 0 ∧ k &&& 4 ≠ 0 ∧ Y = c.ymin)) :
    csCut (Fl.fp p) ((Fl.fp q).x - (Fl.fp p).x) ((Fl.fp q).y - (Fl.fp p).y) (fbox c) k = .ok (Fl.fp (cutY p q Y)) := by
  obtain ⟨hp, hq⟩ := h.modPt hM hM' hc ha hb hav hd
  obtain ⟨_, hl⟩ := UsualBox.lev hM hM' hc ha hb hav
  have hl' : |Y| ≤ 2 ^ 200 := by
    rcases hs with ⟨_, rfl⟩ | ⟨_, _, rfl⟩
    · exact hl.2
    · exact hl.1
  obtain ⟨h1, h2⟩ := cut_fl hM hM' hk hl' hp.2.2
  unfold csCut
  rw [show (Fl.fp q).x - (Fl.fp p).x = fin (rq (q.x - p.x)) from (hq.1.sub hp.1).1,
    show (Fl.fp q).y - (Fl.fp p).y = fin (rq (q.y - p.y)) from (hq.2.sub hp.2).1]
  rcases hs with ⟨k1, rfl⟩ | ⟨k1, k2, rfl⟩
  · rw [if_pos k1]
    show (fdiv (fin (rq (q.x - p.x)) * (fin c.ymax - fin p.y)) (fin (rq (q.y - p.y))) >>= fun x =>
      Except.ok (⟨fin p.x + x, fin c.ymax⟩ : Pt Fl)) = _
    rw [h1, ok_bind, h2]; rfl
  · rw [if_neg (not_not.2 k1), if_pos k2]
    show (fdiv (fin (rq (q.x - p.x)) * (fin c.ymin - fin p.y)) (fin (rq (q.y - p.y))) >>= fun x =>
      Except.ok (⟨fin p.x + x, fin c.ymin⟩ : Pt Fl)) = _
    rw [h1, ok_bind, h2]; rfl

theorem csCut_x {d : ℚ} (hd : d ≤ 4 * cutErr M) {p q : Pt ℚ} (h : Fit M c a b d p q) {X : ℚ}
    (hk : CutOk M p.y q.y p.x q.x X) {k : Nat}
    (hs : (k = 2 ∧ X = c.xmax) ∨ (k = 1 ∧ X = c.xmin)) :
    csCut (Fl.fp p) ((Fl.fp q).x - (Fl.fp p).x) ((Fl.fp q).y - (Fl.fp p).y) (fbox c) k = .ok (Fl.fp (cutX p q X)) := by
  obtain ⟨hp, hq⟩ := h.modPt hM hM' hc ha hb hav hd
  obtain ⟨hl, _⟩ := UsualBox.lev hM hM' hc ha hb hav
  have hl' : |X| ≤ 2 ^ 200 := by
    rcases hs with ⟨_, rfl⟩ | ⟨_, rfl⟩
    · exact hl.2
    · exact hl.1
  obtain ⟨h1, h2⟩ := cut_fl hM hM' hk hl' hp.1.2
  unfold csCut
  rw [show (Fl.fp q).x - (Fl.fp p).x = fin (rq (q.x - p.x)) from (hq.1.sub hp.1).1,
    show (Fl.fp q).y - (Fl.fp p).y = fin (rq (q.y - p.y)) from (hq.2.sub hp.2).1]
  rcases hs with ⟨rfl, rfl⟩ | ⟨rfl, rfl⟩
  · rw [if_neg (by decide), if_neg (by decide), if_pos (by decide)]
    show (fdiv (fin (rq (q.y - p.y)) * (fin c.xmax - fin p.x)) (fin (rq (q.x - p.x))) >>= fun x =>
      Except.ok (⟨fin c.xmax, fin p.y + x⟩ : Pt Fl)) = _
    rw [h1, ok_bind, h2]; rfl
  · rw [if_neg (by decide), if_neg (by decide), if_neg (by decide), if_pos (by decide)]
    show (fdiv (fin (rq (q.y - p.y)) * (fin c.xmin - fin p.x)) (fin (rq (q.x - p.x))) >>= fun x =>
      Except.ok (⟨fin c.xmin, fin p.y + x⟩ : Pt Fl)) = _
    rw [h1, ok_bind, h2]; rfl

/-- The point is on the line of a side of the box. -/
def OnSide (c : Box ℚ) (p : Pt ℚ) : Prop := p.x = c.xmin ∨ p.x = c.xmax ∨ p.y = c.ymin ∨ p.y = c.ymax

theorem Fit.step {d : ℚ} (hd : d ≤ 4 * cutErr M) {p q : Pt ℚ} (h : Fit M c a b d p q) (hs : OnSide c p ∨ OnSide c q)
    {L : Celltree.M (Clip Fl)} (hL : ∃ r, L = .ok r ∧ ClipGood M c a b r) :
    ∃ r, (if ((Fl.fp q).x - (Fl.fp p).x == 0 && (Fl.fp q).y - (Fl.fp p).y == 0) = true then .ok none else L) = .ok r ∧
      ClipGood M c a b r := by
  obtain ⟨hp, hq⟩ := h.modPt hM hM' hc ha hb hav hd
  split
  · rename_i hz
    refine ⟨_, rfl, ?_⟩
    rw [show (Fl.fp q).x - (Fl.fp p).x = fin (rq (q.x - p.x)) from (hq.1.sub hp.1).1,
      show (Fl.fp q).y - (Fl.fp p).y = fin (rq (q.y - p.y)) from (hq.2.sub hp.2).1, beq_fin_zero, beq_fin_zero,
      Bool.and_eq_true, decide_eq_true_eq, decide_eq_true_eq, rq_sub_zero_iff hq.1.1 hp.1.1,
      rq_sub_zero_iff hq.2.1 hp.2.1] at hz
    obtain ⟨h1, h2⟩ := hz
    refine h.none_good hM hM' hc ha hb hav hd ?_
    unfold OnSide at hs
    rw [h1, h2] at hs ⊢
    rcases hs with (h | h | h | h) | (h | h | h | h) <;> simp [h]
  · exact hL

/-- Both ends beyond the same side. -/
theorem Fit.both {d : ℚ} (hd : d ≤ 4 * cutErr M) {p q : Pt ℚ} (h : Fit M c a b d p q) (n : Nat)
    (hs : getClip (Fl.fp p) (fbox c) &&& getClip (Fl.fp q) (fbox c) ≠ 0) :
    ∃ r, loopFrom c (n + 1) p q (getClip (Fl.fp p) (fbox c)) (getClip (Fl.fp q) (fbox c)) = .ok r ∧ ClipGood M c a b r := by
  refine ⟨_, csLoop_both _ _ _ _ hs _ _, h.none_good hM hM' hc ha hb hav hd ?_⟩
  rw [getClip_fin, getClip_fin] at hs
  rcases code_cases p.x c.xmin c.xmax 1 2 with ⟨e1, h1⟩ | ⟨e1, h1⟩ | ⟨e1, h1, h1'⟩ <;>
    rcases code_cases q.x c.xmin c.xmax 1 2 with ⟨e2, h2⟩ | ⟨e2, h2⟩ | ⟨e2, h2, h2'⟩ <;>
    rcases code_cases p.y c.ymin c.ymax 4 8 with ⟨e3, h3⟩ | ⟨e3, h3⟩ | ⟨e3, h3, h3'⟩ <;>
    rcases code_cases q.y c.ymin c.ymax 4 8 with ⟨e4, h4⟩ | ⟨e4, h4⟩ | ⟨e4, h4, h4'⟩ <;>
    rw [e1, e2, e3, e4] at hs <;>
    first
    | (exact absurd rfl hs)
    | (left; exact ⟨h1.le, h2.le⟩)
    | (right; left; exact ⟨h1.le, h2.le⟩)
    | (right; right; left; exact ⟨h3.le, h4.le⟩)
    | (right; right; right; exact ⟨h3.le, h4.le⟩)

/-- The ends of the cut at a vertical side are in the box if both ends are between the horizontal sides. -/
theorem cutX_inY {d : ℚ} (hd : d ≤ 3 * cutErr M) {p q : Pt ℚ} {X : ℚ} (hk : CutOk M p.y q.y p.x q.x X)
    (hn : OnNear (d + cutErr M) a b (cutX p q X)) (hX : X = c.xmin ∨ X = c.xmax) :
    (p.y ≤ c.ymax → q.y ≤ c.ymax → (cutX p q X).y ≤ c.ymax) ∧ (c.ymin ≤ p.y → c.ymin ≤ q.y → c.ymin ≤ (cutX p q X).y) := by
  have he := cutErr_pos hM hM' hc ha hb hav
  have h1 := (cut_err hM hk.hp hk.hq hk.hd hk.h0 hk.h1).1
  rw [abs_le] at h1
  constructor
  · intro h2 h3
    have h4 := lineAt_le_of hk.h0 hk.h1 h2 h3
    by_contra hcon
    push Not at hcon
    have h5 := off_y hM hM' hc ha hb hav (by linarith) hn hX (Y := c.ymax) (Or.inr rfl)
    change c.ymax < cutF p.y q.y p.x q.x X at hcon
    rw [abs_of_neg (by linarith)] at h5
    linarith
  · intro h2 h3
    have h4 := le_lineAt_of hk.h0 hk.h1 h2 h3
    by_contra hcon
    push Not at hcon
    have h5 := off_y hM hM' hc ha hb hav (by linarith) hn hX (Y := c.ymin) (Or.inl rfl)
    change cutF p.y q.y p.x q.x X < c.ymin at hcon
    rw [abs_of_pos (by linarith)] at h5
    linarith

/-- First end in the box, second end between the horizontal sides. -/
theorem Fit.phaseB2 {d : ℚ} (hd : d ≤ 3 * cutErr M) {p q : Pt ℚ} (h : Fit M c a b d p q) (n : Nat)
    (hx : c.xmin ≤ p.x ∧ p.x ≤ c.xmax) (hy : c.ymin ≤ p.y ∧ p.y ≤ c.ymax) (hqy : c.ymin ≤ q.y ∧ q.y ≤ c.ymax) :
    ∃ r, loopFrom c (n + 1) p q 0 (getClip (Fl.fp q) (fbox c)) = .ok r ∧ ClipGood M c a b r := by
  have he := cutErr_pos hM hM' hc ha hb hav
  rw [getClip_fin, code_in 4 8 hqy.1 hqy.2, Nat.or_zero]
  have step : ∀ X k, k ≠ 0 → ((q.x < c.xmin ∧ X = c.xmin ∧ c.xmin ≤ p.x) ∨ (c.xmax < q.x ∧ X = c.xmax ∧ p.x ≤ c.xmax)) →
      ((k = 2 ∧ X = c.xmax) ∨ (k = 1 ∧ X = c.xmin)) →
      ∃ r, loopFrom c (n + 1) p q 0 k = .ok r ∧ ClipGood M c a b r := by
    intro X k hk0 hX hk
    obtain ⟨h1, h2⟩ := h.cutX2 hM hM' hc ha hb hav hd hX
    have hX' : X = c.xmin ∨ X = c.xmax := by rcases hX with ⟨_, rfl, _⟩ | ⟨_, rfl, _⟩ <;> simp
    have hXm : c.xmin ≤ X ∧ X ≤ c.xmax := by
      rcases hX' with rfl | rfl
      · exact ⟨le_refl _, hc.hx⟩
      · exact ⟨hc.hx, le_refl _⟩
    obtain ⟨h3, h4⟩ := cutX_inY hM hM' hc ha hb hav hd h1 h2.nq hX'
    have hz : getClip (Fl.fp (cutX p q X)) (fbox c) = 0 := by
      rw [getClip_fin, code_in (x := (cutX p q X).x) 1 2 hXm.1 hXm.2, code_in 4 8 (h4 hy.1 hqy.1) (h3 hy.2 hqy.2)]; rfl
    rw [loopFrom, csLoop_second n hk0 (csCut_x hM hM' hc ha hb hav (by linarith) h h1 hk), hz]
    refine h2.step hM hM' hc ha hb hav (by linarith) (Or.inr ?_)
      ⟨_, csLoop_zero _ _ _ _ _ _, h2.some_good hM hM' hc ha hb hav (by linarith) hx hy _⟩
    rcases hX' with rfl | rfl
    · exact Or.inl rfl
    · exact Or.inr (Or.inl rfl)
  rcases code_cases q.x c.xmin c.xmax 1 2 with ⟨e1, h1⟩ | ⟨e1, h1⟩ | ⟨e1, h1, h1'⟩ <;> rw [e1]
  · exact step c.xmin 1 (by decide) (Or.inl ⟨h1, rfl, hx.1⟩) (Or.inr ⟨rfl, rfl⟩)
  · exact step c.xmax 2 (by decide) (Or.inr ⟨h1, rfl, hx.2⟩) (Or.inl ⟨rfl, rfl⟩)
  · exact ⟨_, csLoop_zero _ _ _ _ _ _, h.some_good hM hM' hc ha hb hav (by linarith) hx hy _⟩

/-- First end in the box. -/
theorem Fit.phaseB {d : ℚ} (hd : d ≤ 2 * cutErr M) {p q : Pt ℚ} (h : Fit M c a b d p q) (n : Nat)
    (hx : c.xmin ≤ p.x ∧ p.x ≤ c.xmax) (hy : c.ymin ≤ p.y ∧ p.y ≤ c.ymax) :
    ∃ r, loopFrom c (n + 2) p q 0 (getClip (Fl.fp q) (fbox c)) = .ok r ∧ ClipGood M c a b r := by
  have he := cutErr_pos hM hM' hc ha hb hav
  have step : ∀ Y k, k ≠ 0 → ((q.y < c.ymin ∧ Y = c.ymin ∧ c.ymin ≤ p.y) ∨ (c.ymax < q.y ∧ Y = c.ymax ∧ p.y ≤ c.ymax)) →
      ((k &&& 8 ≠ 0 ∧ Y = c.ymax) ∨ (k &&& 8 = 0 ∧ k &&& 4 ≠ 0 ∧ Y = c.ymin)) →
      ∃ r, loopFrom c (n + 2) p q 0 k = .ok r ∧ ClipGood M c a b r := by
    intro Y k hk0 hY hk
    obtain ⟨h1, h2⟩ := h.cutY2 hM hM' hc ha hb hav (by linarith) hY
    have hY' : Y = c.ymin ∨ Y = c.ymax := by rcases hY with ⟨_, rfl, _⟩ | ⟨_, rfl, _⟩ <;> simp
    have hYm : c.ymin ≤ Y ∧ Y ≤ c.ymax := by
      rcases hY' with rfl | rfl
      · exact ⟨le_refl _, hc.hy⟩
      · exact ⟨hc.hy, le_refl _⟩
    rw [loopFrom, csLoop_second (n + 1) hk0 (csCut_y hM hM' hc ha hb hav (by linarith) h h1 hk)]
    refine h2.step hM hM' hc ha hb hav (by linarith) (Or.inr ?_)
      (h2.phaseB2 hM hM' hc ha hb hav (by linarith) n hx hy hYm)
    rcases hY' with rfl | rfl
    · exact Or.inr (Or.inr (Or.inl rfl))
    · exact Or.inr (Or.inr (Or.inr rfl))
  rcases code_cases q.y c.ymin c.ymax 4 8 with ⟨e1, h1⟩ | ⟨e1, h1⟩ | ⟨e1, h1, h1'⟩
  · rw [getClip_fin, e1]
    refine step c.ymin _ ?_ (Or.inl ⟨h1, rfl, hy.1⟩) (Or.inr ?_) <;>
      rcases code_cases q.x c.xmin c.xmax 1 2 with ⟨e2, _⟩ | ⟨e2, _⟩ | ⟨e2, _⟩ <;> rw [e2] <;> simp
  · rw [getClip_fin, e1]
    refine step c.ymax _ ?_ (Or.inr ⟨h1, rfl, hy.2⟩) (Or.inl ?_) <;>
      rcases code_cases q.x c.xmin c.xmax 1 2 with ⟨e2, _⟩ | ⟨e2, _⟩ | ⟨e2, _⟩ <;> rw [e2] <;> simp
  · exact h.phaseB2 hM hM' hc ha hb hav (by linarith) (n + 1) hx hy ⟨h1, h1'⟩

/-- First end between the horizontal sides. -/
theorem Fit.phaseA2 {d : ℚ} (hd : d ≤ cutErr M) {p q : Pt ℚ} (h : Fit M c a b d p q) (n : Nat)
    (hy : c.ymin ≤ p.y ∧ p.y ≤ c.ymax) :
    ∃ r, loopFrom c (n + 3) p q (getClip (Fl.fp p) (fbox c)) (getClip (Fl.fp q) (fbox c)) = .ok r ∧
      ClipGood M c a b r := by
  have he := cutErr_pos hM hM' hc ha hb hav
  by_cases hboth : getClip (Fl.fp p) (fbox c) &&& getClip (Fl.fp q) (fbox c) = 0
  swap
  · exact h.both hM hM' hc ha hb hav (by linarith) (n + 2) hboth
  have hkp : getClip (Fl.fp p) (fbox c) = code p.x c.xmin c.xmax 1 2 := by
    rw [getClip_fin, code_in 4 8 hy.1 hy.2, Nat.or_zero]
  rw [hkp] at hboth ⊢
  have step : ∀ X k, k ≠ 0 → k &&& getClip (Fl.fp q) (fbox c) = 0 →
      ((p.x < c.xmin ∧ X = c.xmin ∧ c.xmin ≤ q.x) ∨ (c.xmax < p.x ∧ X = c.xmax ∧ q.x ≤ c.xmax)) →
      ((k = 2 ∧ X = c.xmax) ∨ (k = 1 ∧ X = c.xmin)) →
      ∃ r, loopFrom c (n + 3) p q k (getClip (Fl.fp q) (fbox c)) = .ok r ∧ ClipGood M c a b r := by
    intro X k hk0 hkk hX hk
    obtain ⟨h1, h2⟩ := h.cutX1 hM hM' hc ha hb hav (by linarith) hX
    have hX' : X = c.xmin ∨ X = c.xmax := by rcases hX with ⟨_, rfl, _⟩ | ⟨_, rfl, _⟩ <;> simp
    have hXm : c.xmin ≤ X ∧ X ≤ c.xmax := by
      rcases hX' with rfl | rfl
      · exact ⟨le_refl _, hc.hx⟩
      · exact ⟨hc.hx, le_refl _⟩
    obtain ⟨h3, h4⟩ := cutX_inY hM hM' hc ha hb hav (by linarith) h1 h2.np hX'
    have hpx : getClip (Fl.fp (cutX p q X)) (fbox c) = code (cutX p q X).y c.ymin c.ymax 4 8 := by
      rw [getClip_fin, code_in (x := (cutX p q X).x) 1 2 hXm.1 hXm.2, Nat.zero_or]
    rw [loopFrom, csLoop_first (n + 2) hk0 hkk (csCut_x hM hM' hc ha hb hav (by linarith) h h1 hk)]
    refine h2.step hM hM' hc ha hb hav (by linarith) (Or.inl ?_) ?_
    · rcases hX' with rfl | rfl
      · exact Or.inl rfl
      · exact Or.inr (Or.inl rfl)
    · rcases code_cases (cutX p q X).y c.ymin c.ymax 4 8 with ⟨e1, g1⟩ | ⟨e1, g1⟩ | ⟨e1, g1, g1'⟩
      · refine h2.both hM hM' hc ha hb hav (by linarith) (n + 1) ?_
        have hq : q.y < c.ymin := by
          by_contra hcon
          exact absurd (h4 hy.1 (not_lt.1 hcon)) (not_le.2 g1)
        rw [hpx, e1, getClip_fin]
        have : code q.y c.ymin c.ymax 4 8 = 4 := by unfold code; rw [if_pos hq]
        rw [this]
        rcases code_cases q.x c.xmin c.xmax 1 2 with ⟨e2, _⟩ | ⟨e2, _⟩ | ⟨e2, _⟩ <;> rw [e2] <;> decide
      · refine h2.both hM hM' hc ha hb hav (by linarith) (n + 1) ?_
        have hq : c.ymax < q.y := by
          by_contra hcon
          exact absurd (h3 hy.2 (not_lt.1 hcon)) (not_le.2 g1)
        rw [hpx, e1, getClip_fin]
        have : code q.y c.ymin c.ymax 4 8 = 8 := by
          unfold code; rw [if_neg (not_lt.2 (hc.hy.trans hq.le)), if_pos hq]
        rw [this]
        rcases code_cases q.x c.xmin c.xmax 1 2 with ⟨e2, _⟩ | ⟨e2, _⟩ | ⟨e2, _⟩ <;> rw [e2] <;> decide
      · rw [hpx, e1]
        exact h2.phaseB hM hM' hc ha hb hav (by linarith) n hXm ⟨g1, g1'⟩
  rcases code_cases p.x c.xmin c.xmax 1 2 with ⟨e1, h1⟩ | ⟨e1, h1⟩ | ⟨e1, h1, h1'⟩ <;> rw [e1] at hboth ⊢
  · refine step c.xmin 1 (by decide) hboth (Or.inl ⟨h1, rfl, ?_⟩) (Or.inr ⟨rfl, rfl⟩)
    by_contra hcon
    push Not at hcon
    rw [getClip_fin, show code q.x c.xmin c.xmax 1 2 = 1 by unfold code; rw [if_pos hcon]] at hboth
    rcases code_cases q.y c.ymin c.ymax 4 8 with ⟨e2, _⟩ | ⟨e2, _⟩ | ⟨e2, _⟩ <;> rw [e2] at hboth <;>
      exact absurd hboth (by decide)
  · refine step c.xmax 2 (by decide) hboth (Or.inr ⟨h1, rfl, ?_⟩) (Or.inl ⟨rfl, rfl⟩)
    by_contra hcon
    push Not at hcon
    rw [getClip_fin, show code q.x c.xmin c.xmax 1 2 = 2 by
      unfold code; rw [if_neg (not_lt.2 (hc.hx.trans hcon.le)), if_pos hcon]] at hboth
    rcases code_cases q.y c.ymin c.ymax 4 8 with ⟨e2, _⟩ | ⟨e2, _⟩ | ⟨e2, _⟩ <;> rw [e2] at hboth <;>
      exact absurd hboth (by decide)
  · exact h.phaseB hM hM' hc ha hb hav (by linarith) (n + 1) ⟨h1, h1'⟩ hy

/-- The whole loop. -/
theorem Fit.phaseA {p q : Pt ℚ} (h : Fit M c a b 0 p q) (n : Nat) :
    ∃ r, loopFrom c (n + 4) p q (getClip (Fl.fp p) (fbox c)) (getClip (Fl.fp q) (fbox c)) = .ok r ∧
      ClipGood M c a b r := by
  have he := cutErr_pos hM hM' hc ha hb hav
  by_cases hboth : getClip (Fl.fp p) (fbox c) &&& getClip (Fl.fp q) (fbox c) = 0
  swap
  · exact h.both hM hM' hc ha hb hav (by linarith) (n + 3) hboth
  have step : ∀ Y, getClip (Fl.fp p) (fbox c) ≠ 0 →
      ((p.y < c.ymin ∧ Y = c.ymin ∧ c.ymin ≤ q.y) ∨ (c.ymax < p.y ∧ Y = c.ymax ∧ q.y ≤ c.ymax)) →
      ((getClip (Fl.fp p) (fbox c) &&& 8 ≠ 0 ∧ Y = c.ymax) ∨
        (getClip (Fl.fp p) (fbox c) &&& 8 = 0 ∧ getClip (Fl.fp p) (fbox c) &&& 4 ≠ 0 ∧ Y = c.ymin)) →
      ∃ r, loopFrom c (n + 4) p q (getClip (Fl.fp p) (fbox c)) (getClip (Fl.fp q) (fbox c)) = .ok r ∧
        ClipGood M c a b r := by
    intro Y hk0 hY hk
    obtain ⟨h1, h2⟩ := h.cutY1 hM hM' hc ha hb hav (by linarith) hY
    have hY' : Y = c.ymin ∨ Y = c.ymax := by rcases hY with ⟨_, rfl, _⟩ | ⟨_, rfl, _⟩ <;> simp
    have hYm : c.ymin ≤ Y ∧ Y ≤ c.ymax := by
      rcases hY' with rfl | rfl
      · exact ⟨le_refl _, hc.hy⟩
      · exact ⟨hc.hy, le_refl _⟩
    rw [loopFrom, csLoop_first (n + 3) hk0 hboth (csCut_y hM hM' hc ha hb hav (by linarith) h h1 hk)]
    refine h2.step hM hM' hc ha hb hav (by linarith) (Or.inl ?_)
      (h2.phaseA2 hM hM' hc ha hb hav (by linarith) n hYm)
    rcases hY' with rfl | rfl
    · exact Or.inr (Or.inr (Or.inl rfl))
    · exact Or.inr (Or.inr (Or.inr rfl))
  rcases code_cases p.y c.ymin c.ymax 4 8 with ⟨e1, h1⟩ | ⟨e1, h1⟩ | ⟨e1, h1, h1'⟩
  · have hq : c.ymin ≤ q.y := by
      by_contra hcon
      push Not at hcon
      rw [getClip_fin, getClip_fin, e1, show code q.y c.ymin c.ymax 4 8 = 4 by unfold code; rw [if_pos hcon]] at hboth
      rcases code_cases p.x c.xmin c.xmax 1 2 with ⟨e2, _⟩ | ⟨e2, _⟩ | ⟨e2, _⟩ <;>
        rcases code_cases q.x c.xmin c.xmax 1 2 with ⟨e3, _⟩ | ⟨e3, _⟩ | ⟨e3, _⟩ <;> rw [e2, e3] at hboth <;>
        exact absurd hboth (by decide)
    refine step c.ymin ?_ (Or.inl ⟨h1, rfl, hq⟩) (Or.inr ?_) <;> rw [getClip_fin, e1] <;>
      rcases code_cases p.x c.xmin c.xmax 1 2 with ⟨e2, _⟩ | ⟨e2, _⟩ | ⟨e2, _⟩ <;> rw [e2] <;> simp
  · have hq : q.y ≤ c.ymax := by
      by_contra hcon
      push Not at hcon
      rw [getClip_fin, getClip_fin, e1, show code q.y c.ymin c.ymax 4 8 = 8 by
        unfold code; rw [if_neg (not_lt.2 (hc.hy.trans hcon.le)), if_pos hcon]] at hboth
      rcases code_cases p.x c.xmin c.xmax 1 2 with ⟨e2, _⟩ | ⟨e2, _⟩ | ⟨e2, _⟩ <;>
        rcases code_cases q.x c.xmin c.xmax 1 2 with ⟨e3, _⟩ | ⟨e3, _⟩ | ⟨e3, _⟩ <;> rw [e2, e3] at hboth <;>
        exact absurd hboth (by decide)
    refine step c.ymax ?_ (Or.inr ⟨h1, rfl, hq⟩) (Or.inl ?_) <;> rw [getClip_fin, e1] <;>
      rcases code_cases p.x c.xmin c.xmax 1 2 with ⟨e2, _⟩ | ⟨e2, _⟩ | ⟨e2, _⟩ <;> rw [e2] <;> simp
  · exact h.phaseA2 hM hM' hc ha hb hav (by linarith) (n + 1) ⟨h1, h1'⟩

/-- Cohen-Sutherland in binary64: it returns, it finds the segments that pass through the box well away from its
boundary, and it finds only segments that come close to the box. -/
theorem cohenSutherland_fl (hne : a ≠ b) :
    ∃ r, cohenSutherland (Fl.fp a) (Fl.fp b) (fbox c) = .ok r ∧ ClipGood M c a b r := by
  have h0 : Fit M c a b 0 a b := by
    refine ⟨⟨0, le_refl _, zero_le_one, ?_⟩, ⟨1, zero_le_one, le_refl _, ?_⟩, ⟨ha.1.1, ha.2.1⟩, ⟨hb.1.1, hb.2.1⟩,
      far_usual hc ha, far_usual hc hb, fun w _ hw => hw⟩
    · rw [lineAt_zero]; exact within_self (le_refl _) _
    · rw [lineAt_one]; exact within_self (le_refl _) _
  obtain ⟨hp, hq⟩ := h0.modPt hM hM' hc ha hb hav (by have := cutErr_nonneg hM; linarith)
  obtain ⟨r, h1, h2⟩ := h0.phaseA hM hM' hc ha hb hav 0
  refine ⟨r, ?_, h2⟩
  unfold cohenSutherland
  simp only
  rw [if_neg]
  · exact h1
  · rw [show (Fl.fp b).x - (Fl.fp a).x = fin (rq (b.x - a.x)) from (hq.1.sub hp.1).1,
      show (Fl.fp b).y - (Fl.fp a).y = fin (rq (b.y - a.y)) from (hq.2.sub hp.2).1, beq_fin_zero, beq_fin_zero,
      Bool.and_eq_true, decide_eq_true_eq, decide_eq_true_eq, rq_sub_zero_iff hq.1.1 hp.1.1,
      rq_sub_zero_iff hq.2.1 hp.2.1]
    rintro ⟨e1, e2⟩
    refine hne ?_
    cases a; cases b
    simp only at e1 e2
    rw [e1, e2]

end

end Celltree.Fl
