import Verif.Spec.FloatWholeCross
import Verif.Proofs.FloatWhole
import Verif.Proofs.FloatCross
import Verif.Proofs.CyrusBeck

/-!
# Two segments at integer coordinates in binary64
-/

set_option linter.unusedSectionVars false

namespace Celltree

theorem straddles_iff {a b p q : Pt ℚ} : Straddles a b p q ↔ PassesBetween p q a b ∧ PassesBetween a b p q := by
  have key : ∀ x y : ℚ, ¬ (0 < x ↔ 0 < y) ↔ (0 < x ∧ y ≤ 0) ∨ (x ≤ 0 ∧ 0 < y) := by
    intro x y
    rcases lt_or_ge 0 x with h1 | h1 <;> rcases lt_or_ge 0 y with h2 | h2 <;>
      simp [h1, h2, not_lt.2, not_le.2]
  unfold Straddles PassesBetween
  rw [key, key]

theorem unit_overlap {a d s s' : ℚ} (hd : d ≠ 0)
    (h1 : min a (a + d) ≤ max (a + s * d) (a + s' * d)) (h2 : min (a + s * d) (a + s' * d) ≤ max a (a + d)) :
    (0 ≤ s ∨ 0 ≤ s') ∧ (s ≤ 1 ∨ s' ≤ 1) := by
  rcases lt_or_gt_of_ne hd with h | h
  · rw [min_eq_right (by linarith)] at h1
    rw [max_eq_left (by linarith)] at h2
    constructor
    · rcases min_le_iff.1 h2 with g | g
      · left; by_contra hs; push Not at hs; nlinarith
      · right; by_contra hs; push Not at hs; nlinarith
    · rcases le_max_iff.1 h1 with g | g
      · left; by_contra hs; push Not at hs; nlinarith
      · right; by_contra hs; push Not at hs; nlinarith
  · rw [min_eq_left (by linarith)] at h1
    rw [max_eq_right (by linarith)] at h2
    constructor
    · rcases le_max_iff.1 h1 with g | g
      · left; by_contra hs; push Not at hs; nlinarith
      · right; by_contra hs; push Not at hs; nlinarith
    · rcases min_le_iff.1 h2 with g | g
      · left; by_contra hs; push Not at hs; nlinarith
      · right; by_contra hs; push Not at hs; nlinarith

/-- Segments on one line whose ranges of coordinates meet have a point in common. -/
theorem collinear_share {a b p q : Pt ℚ} (hab : a ≠ b) (hp : orient a b p = 0) (hq : orient a b q = 0)
    (x1 : min a.x b.x ≤ max p.x q.x) (x2 : min p.x q.x ≤ max a.x b.x) (y1 : min a.y b.y ≤ max p.y q.y)
    (y2 : min p.y q.y ≤ max a.y b.y) : ∃ c, ShareAt a b p q c := by
  obtain ⟨s, rfl⟩ := exists_lineAt hab hp
  obtain ⟨s', rfl⟩ := exists_lineAt hab hq
  have hs : (0 ≤ s ∨ 0 ≤ s') ∧ (s ≤ 1 ∨ s' ≤ 1) := by
    by_cases hx : b.x - a.x = 0
    · have hy : b.y - a.y ≠ 0 := by
        intro hy
        exact hab (Pt.ext' (by linarith) (by linarith))
      refine unit_overlap (a := a.y) hy ?_ ?_
      · simpa [lineAt] using y1
      · simpa [lineAt] using y2
    · refine unit_overlap (a := a.x) hx ?_ ?_
      · simpa [lineAt] using x1
      · simpa [lineAt] using x2
  have mk : ∀ w, 0 ≤ w → w ≤ 1 → 0 ≤ s + w * (s' - s) → s + w * (s' - s) ≤ 1 → ∃ c, ShareAt a b (lineAt a b s) (lineAt a b s') c := by
    intro w w0 w1 g0 g1
    refine ⟨lineAt a b (s + w * (s' - s)), _, w, g0, g1, w0, w1, rfl, ?_⟩
    unfold lineAt
    apply Pt.ext' <;> simp only <;> ring
  by_cases h0 : 0 ≤ s
  · by_cases h1 : s ≤ 1
    · exact mk 0 le_rfl zero_le_one (by simpa using h0) (by simpa using h1)
    · push Not at h1
      have h2 : s' ≤ 1 := hs.2.resolve_left (not_le.2 h1)
      have hd : 0 < s - s' := by linarith
      refine mk ((s - 1) / (s - s')) (div_nonneg (by linarith) hd.le) ((div_le_one hd).2 (by linarith)) ?_ ?_
      all_goals
        have : s + (s - 1) / (s - s') * (s' - s) = 1 := by field_simp; ring
        rw [this] <;> norm_num
  · push Not at h0
    have h2 : 0 ≤ s' := hs.1.resolve_left (not_le.2 h0)
    have hd : 0 < s' - s := by linarith
    refine mk (-s / (s' - s)) (div_nonneg (by linarith) hd.le) ((div_le_one hd).2 (by linarith)) ?_ ?_
    all_goals
      have : s + -s / (s' - s) * (s' - s) = 0 := by field_simp; ring
      rw [this] <;> norm_num

end Celltree

namespace Celltree.Fl

theorem whole_rq {n : Nat} {q : ℚ} (h : Whole n q) (hn : n ≤ 53) : rq q = q := rq_of_isRep (h.isRep hn)

theorem whole_modPt {p : Pt ℚ} (h : WholePt p) : ModPt p :=
  ⟨⟨h.1.isRep (by norm_num), h.1.abs_le.trans (by norm_num)⟩, ⟨h.2.isRep (by norm_num), h.2.abs_le.trans (by norm_num)⟩⟩

theorem whole_left {x p q : Pt ℚ} (hx : WholePt x) (hp : WholePt p) (hq : WholePt q) :
    leftR x p q = decide (0 < orient p q x) := by
  unfold leftR
  have a1 := hq.2.sub hp.2
  have a2 := hx.1.sub hp.1
  have a3 := hq.1.sub hp.1
  have a4 := hx.2.sub hp.2
  rw [whole_rq a1 (by norm_num), whole_rq a2 (by norm_num), whole_rq a3 (by norm_num), whole_rq a4 (by norm_num),
    whole_rq (a1.mul a2) (by norm_num), whole_rq (a3.mul a4) (by norm_num), decide_eq_decide]
  unfold orient
  constructor <;> intro h <;> linarith

theorem whole_crossR {a b p q : Pt ℚ} (ha : WholePt a) (hb : WholePt b) (hp : WholePt p) (hq : WholePt q) :
    crossR (b.x - a.x) (b.y - a.y) (q.x - p.x) (q.y - p.y) =
      (b.x - a.x) * (q.y - p.y) - (b.y - a.y) * (q.x - p.x) ∧
      Whole 53 ((b.x - a.x) * (q.y - p.y) - (b.y - a.y) * (q.x - p.x)) := by
  have a1 := hb.1.sub ha.1
  have a2 := hb.2.sub ha.2
  have a3 := hq.1.sub hp.1
  have a4 := hq.2.sub hp.2
  have w := (a1.mul a4).sub (a2.mul a3)
  refine ⟨?_, w⟩
  unfold crossR
  rw [whole_rq a1 (by norm_num), whole_rq a2 (by norm_num), whole_rq a3 (by norm_num), whole_rq a4 (by norm_num),
    whole_rq (a1.mul a4) (by norm_num), whole_rq (a2.mul a3) (by norm_num), whole_rq w (by norm_num)]

theorem whole_min {x y : ℚ} (hx : Whole 25 x) (hy : Whole 25 y) : Whole 25 (min x y) ∧ Whole 25 (max x y) := by
  constructor
  · rcases min_choice x y with h | h <;> rw [h] <;> assumption
  · rcases max_choice x y with h | h <;> rw [h] <;> assumption

section
variable {env : Env Fl} {m f : ℚ} (hT : Tols env m f) (hm : m ≤ 1 / 2 ^ 20) (hf : f ≤ 1 / 2 ^ 38)
variable {a b p q : Pt ℚ} (ha : WholePt a) (hb : WholePt b) (hp : WholePt p) (hq : WholePt q)
variable (sab : |b.x - a.x| ≤ 2 ^ 18 ∧ |b.y - a.y| ≤ 2 ^ 18) (spq : |q.x - p.x| ≤ 2 ^ 18 ∧ |q.y - p.y| ≤ 2 ^ 18)
include hT hm hf hp hq spq

theorem whole_tolR : 1 / 2 ^ 200 ≤ tolR m f p q ∧ tolR m f p q ≤ 1 / 2 ^ 20 := by
  unfold tolR
  rw [whole_rq (hq.1.sub hp.1) (by norm_num), whole_rq (hq.2.sub hp.2) (by norm_num)]
  constructor
  · exact le_trans (le_trans (by norm_num) hT.m_ge) (le_max_left _ _)
  · refine max_le hm ?_
    have h0 : 0 ≤ max |q.x - p.x| |q.y - p.y| := le_max_of_le_left (abs_nonneg _)
    have : f * max |q.x - p.x| |q.y - p.y| ≤ 1 / 2 ^ 20 := by
      calc f * max |q.x - p.x| |q.y - p.y| ≤ 1 / 2 ^ 38 * max |q.x - p.x| |q.y - p.y| := mul_le_mul_of_nonneg_right hf h0
        _ ≤ 1 / 2 ^ 38 * 2 ^ 18 := mul_le_mul_of_nonneg_left (max_le spq.1 spq.2) (by positivity)
        _ = _ := by norm_num
    have := rq_mono this
    rwa [rq_of_isRep (isRep_two_pow_inv (by norm_num))] at this

include ha hb sab

theorem whole_close {C : ℚ} (hC : Whole 53 C) (hab : a ≠ b) : closeR C (tolR m f p q) a b = decide (C = 0) := by
  obtain ⟨h1, h2⟩ := whole_tolR hT hm hf hp hq spq
  have hne : b.eqv a = false := by
    rw [Bool.eq_false_iff, ne_eq, eqv_iff]
    exact fun h => hab h.symm
  obtain ⟨e, w1, w2⟩ := whole_side ha hb sab hne
  have := within_fl (C := C) (tl := tolR m f p q) (whole_modPt ha) (whole_modPt hb) (hC.abs_le.trans (pow_le_pow_right₀ (by norm_num) (by norm_num)))
    (by rw [abs_of_nonneg (le_trans (by positivity) h1)]; exact h2.trans (by norm_num))
  rw [← this, ← whole_within h1 h2 hC w1 w2 e]
  unfold toVector fp
  rw [whole_rq (hb.1.sub ha.1) (by norm_num), whole_rq (hb.2.sub ha.2) (by norm_num)]

/-- The ranges of two integer intervals are less than the tolerance apart only if they meet. -/
theorem whole_gap {x y : ℚ} (hx : Whole 25 x) (hy : Whole 25 y) : rq (x - y) < tolR m f p q ↔ x ≤ y := by
  obtain ⟨h1, h2⟩ := whole_tolR hT hm hf hp hq spq
  rw [whole_rq (hx.sub hy) (by norm_num)]
  constructor
  · intro h
    obtain ⟨i, rfl, -⟩ := hx
    obtain ⟨j, rfl, -⟩ := hy
    have : ((i - j : Int) : ℚ) < 1 := by
      push_cast
      exact lt_of_lt_of_le h (h2.trans (by norm_num))
    have : i - j < 1 := by exact_mod_cast this
    exact_mod_cast (show i ≤ j by omega)
  · intro h
    exact lt_of_le_of_lt (sub_nonpos.2 h) (lt_of_lt_of_le (by positivity) h1)

theorem whole_guard : GuardR (tolR m f p q) a b p q ↔ a ≠ b ∧ p ≠ q ∧ (p.x = q.x → a.x = b.x → a.x = p.x) ∧
    (p.y = q.y → a.y = b.y → a.y = p.y) ∧ (min a.x b.x ≤ max p.x q.x ∧ min p.x q.x ≤ max a.x b.x) ∧
    min a.y b.y ≤ max p.y q.y ∧ min p.y q.y ≤ max a.y b.y := by
  have g := fun {x y : ℚ} (hx : Whole 25 x) (hy : Whole 25 y) => whole_gap hT hm hf ha hb hp hq sab spq hx hy
  have w := fun {x y : ℚ} (hx : Whole 25 x) (hy : Whole 25 y) => whole_min hx hy
  unfold GuardR
  rw [g (w ha.1 hb.1).1 (w hp.1 hq.1).2, g (w hp.1 hq.1).1 (w ha.1 hb.1).2, g (w ha.2 hb.2).1 (w hp.2 hq.2).2,
    g (w hp.2 hq.2).1 (w ha.2 hb.2).2]

theorem whole_guard_share (hab : a ≠ b) (hpq : p ≠ q) {c : Pt ℚ} (h : ShareAt a b p q c) : GuardR (tolR m f p q) a b p q := by
  rw [whole_guard hT hm hf ha hb hp hq sab spq]
  have ov := fun ε (hε : (0 : ℚ) < ε) => h.overlap hε
  have key : ∀ x y : ℚ, (∀ ε, 0 < ε → x - y < ε) → x ≤ y := by
    intro x y hx
    exact le_of_forall_pos_lt_add fun ε hε => by have := hx ε hε; linarith
  obtain ⟨u, v, u0, u1, v0, v1, h1, h2⟩ := h
  have e := h1.symm.trans h2
  have ex : a.x + u * (b.x - a.x) = p.x + v * (q.x - p.x) := congrArg Pt.x e
  have ey : a.y + u * (b.y - a.y) = p.y + v * (q.y - p.y) := congrArg Pt.y e
  refine ⟨hab, hpq, ?_, ?_, ⟨key _ _ fun ε hε => (ov ε hε).1.1, key _ _ fun ε hε => (ov ε hε).1.2⟩,
    key _ _ fun ε hε => (ov ε hε).2.1, key _ _ fun ε hε => (ov ε hε).2.2⟩
  · intro k1 k2
    rw [← k1, ← k2] at ex
    linarith
  · intro k1 k2
    rw [← k1, ← k2] at ey
    linarith

/-- The location of a crossing. -/
theorem whole_location (hab : a ≠ b) (hs : Straddles a b p q) :
    ∃ x, intersectionLocationPoint (⟨fin (rq (b.x - a.x)), fin (rq (b.y - a.y))⟩ : Pt Fl)
      ⟨fin (rq (q.x - p.x)), fin (rq (q.y - p.y))⟩ (fp a) (fp p) (fin (tolR m f p q)) = .ok (some (fp x)) ∧
      Within (1 / 2 ^ 22) x (lineAt a b (crossAt a b p q)) := by
  obtain ⟨t0, t1, hd⟩ := ratio_unit hs.1
  obtain ⟨c1, w1⟩ := whole_crossR ha hb hp hq
  obtain ⟨c2, w2⟩ := whole_crossR ha hp hp hq
  have q1 : (p.x - a.x) * (q.y - p.y) - (p.y - a.y) * (q.x - p.x) = orient p q a := by unfold orient; ring
  have q2 : (b.x - a.x) * (q.y - p.y) - (b.y - a.y) * (q.x - p.x) = orient p q a - orient p q b := by unfold orient; ring
  rw [q1] at c2 w2
  rw [q2] at c1 w1
  have hN : orient p q a - orient p q b ≠ 0 := by
    intro h
    exact hd (by linarith)
  rw [location_flEq hT (whole_modPt ha) (whole_modPt hb) (whole_modPt hp) (whole_modPt hq), c1, c2,
    whole_close hT hm hf ha hb hp hq sab spq w1 hab, decide_eq_false hN]
  have hr : |orient p q a / (orient p q a - orient p q b)| ≤ 2 ^ 0 := by
    rw [abs_of_nonneg t0]; simpa using t1
  rw [fdiv_fin hN (by norm_num) hr]
  have hτ : |rq (orient p q a / (orient p q a - orient p q b))| ≤ 2 := (abs_rq_le hr).trans (by norm_num)
  have herr : |rq (orient p q a / (orient p q a - orient p q b)) - crossAt a b p q| ≤ 1 / 2 ^ 52 := by
    have := rq_abs hr (by rw [pow_zero]; exact div_le_one_of_le₀ (one_le_pow₀ (by norm_num)) (by positivity))
    exact this.trans (by unfold u; norm_num)
  obtain ⟨x, x1, x2⟩ := toPoint_fl2 (M := 2 ^ 25) (by norm_num) (by norm_num) (whole_modPt ha) (whole_modPt hb)
    ⟨ha.1.abs_le, ha.2.abs_le⟩ ⟨hb.1.abs_le, hb.2.abs_le⟩ sab hτ herr
  refine ⟨x, ?_, x2.mono (by norm_num)⟩
  simp only [Bool.false_eq_true, if_false]
  change (Except.ok (some (toPoint _ (fp a) (toVector (fp a) (fp b)))) : Celltree.M _) = _
  rw [x1]

/-- `lines_intersect` at integer coordinates. -/
theorem whole_linesIntersect : ∃ r c, linesIntersect env (fp a) (fp b) (fp p) (fp q) = .ok (r, c) ∧
    (r = true ↔ Meet a b p q) ∧
    (Straddles a b p q → ∃ x, c = some (fp x) ∧ Within (1 / 2 ^ 22) x (lineAt a b (crossAt a b p q))) := by
  have stne : Straddles a b p q → a ≠ b ∧ p ≠ q := by
    intro h
    constructor
    · rintro rfl; exact h.1 Iff.rfl
    · rintro rfl; exact h.2 Iff.rfl
  have hl : (leftR a p q ≠ leftR b p q ∧ leftR p a b ≠ leftR q a b) ↔ Straddles a b p q := by
    rw [whole_left ha hp hq, whole_left hb hp hq, whole_left hp ha hb, whole_left hq ha hb, ne_eq, ne_eq, decide_eq_decide,
      decide_eq_decide]
    rfl
  have hcl : ∀ v, WholePt v → a ≠ b →
      (closeR (crossR (b.x - a.x) (b.y - a.y) (v.x - a.x) (v.y - a.y)) (tolR m f p q) a b = true ↔ orient a b v = 0) := by
    intro v hv hab
    obtain ⟨c, w⟩ := whole_crossR ha hb ha hv
    rw [c, whole_close hT hm hf ha hb hp hq sab spq w hab, decide_eq_true_iff]
    unfold orient
    constructor <;> intro h <;> linarith
  rw [linesIntersect_flEq hT (whole_modPt ha) (whole_modPt hb) (whole_modPt hp) (whole_modPt hq)]
  have meet_guard : Meet a b p q → GuardR (tolR m f p q) a b p q := by
    rintro ⟨hab, hpq, h | ⟨_, _, c, hc⟩⟩
    · exact whole_guard_share hT hm hf ha hb hp hq sab spq hab hpq (straddles_share (straddles_iff.2 h))
    · exact whole_guard_share hT hm hf ha hb hp hq sab spq hab hpq hc
  have st_meet : Straddles a b p q → Meet a b p q := fun h => ⟨(stne h).1, (stne h).2, Or.inl (straddles_iff.1 h)⟩
  by_cases hg : GuardR (tolR m f p q) a b p q
  · rw [if_pos hg]
    by_cases hs : Straddles a b p q
    · rw [if_pos (hl.2 hs)]
      obtain ⟨x, x1, x2⟩ := whole_location hT hm hf ha hb hp hq sab spq (stne hs).1 hs
      rw [x1]
      exact ⟨true, some (fp x), rfl, ⟨fun _ => st_meet hs, fun _ => rfl⟩, fun _ => ⟨x, rfl, x2⟩⟩
    · rw [if_neg (fun h => hs (hl.1 h))]
      have hg' := (whole_guard hT hm hf ha hb hp hq sab spq).1 hg
      split_ifs with hc
      · refine ⟨true, _, rfl, ⟨fun _ => ?_, fun _ => rfl⟩, fun h => absurd h hs⟩
        have o1 := (hcl p hp hg'.1).1 hc.1
        have o2 := (hcl q hq hg'.1).1 hc.2
        exact ⟨hg'.1, hg'.2.1, Or.inr ⟨o1, o2, collinear_share hg'.1 o1 o2 hg'.2.2.2.2.1.1 hg'.2.2.2.2.1.2
          hg'.2.2.2.2.2.1 hg'.2.2.2.2.2.2⟩⟩
      · refine ⟨false, none, rfl, ⟨fun h => by simp at h, ?_⟩, fun h => absurd h hs⟩
        rintro ⟨hab, _, h | ⟨h1, h2, _⟩⟩
        · exact absurd (straddles_iff.2 h) hs
        · exact absurd ⟨(hcl p hp hab).2 h1, (hcl q hq hab).2 h2⟩ hc
  · rw [if_neg hg]
    exact ⟨false, none, rfl, ⟨fun h => by simp at h, fun h => absurd (meet_guard h) hg⟩, fun h => absurd (meet_guard (st_meet h)) hg⟩

end

end Celltree.Fl
