import Verif.Proofs.CohenSutherland

/-!
# Liang-Barsky in exact arithmetic
-/

set_option linter.unusedSectionVars false

namespace Celltree

variable {K : Type} [Field K] [LinearOrder K] [IsStrictOrderedRing K]

/-- Parameters that satisfy all the inequalities `u * p ≤ q`. -/
def LbSat (l : List (K × K)) (u : K) : Prop := ∀ pq ∈ l, u * pq.1 ≤ pq.2

theorem sat_cons (p q : K) (l : List (K × K)) (u : K) : LbSat ((p, q) :: l) u ↔ u * p ≤ q ∧ LbSat l u := by
  simp [LbSat]

/-- What the loop computes: the interval of parameters in `[t0, t1]` that satisfy all inequalities. -/
def LbSpec (l : List (K × K)) (t0 t1 : K) : Option (K × K) → Prop
  | none => ∀ u, t0 ≤ u → u ≤ t1 → ¬ LbSat l u
  | some (s, t) => t0 ≤ s ∧ s ≤ t ∧ t ≤ t1 ∧ ∀ u, (t0 ≤ u ∧ u ≤ t1 ∧ LbSat l u) ↔ s ≤ u ∧ u ≤ t

theorem lbLoop_spec (l : List (K × K)) (t0 t1 : K) (h : t0 ≤ t1) :
    ∃ r, lbLoop l t0 t1 = .ok r ∧ LbSpec l t0 t1 r := by
  induction l generalizing t0 t1 with
  | nil => exact ⟨_, rfl, le_refl _, h, le_refl _, fun u => by simp [LbSat]⟩
  | cons pq rest ih =>
    obtain ⟨p, q⟩ := pq
    -- replace the interval
    have step : ∀ s0 s1, s0 ≤ s1 → t0 ≤ s0 → s1 ≤ t1 →
        (∀ u, t0 ≤ u → u ≤ t1 → (u * p ≤ q ↔ s0 ≤ u ∧ u ≤ s1)) →
        ∃ r, lbLoop rest s0 s1 = .ok r ∧ LbSpec ((p, q) :: rest) t0 t1 r := by
      intro s0 s1 hs hs0 hs1 hiff
      obtain ⟨r, h1, h2⟩ := ih s0 s1 hs
      refine ⟨r, h1, ?_⟩
      match r with
      | none =>
        intro u hu0 hu1 hu
        rw [sat_cons] at hu
        obtain ⟨g1, g2⟩ := (hiff u hu0 hu1).1 hu.1
        exact h2 u g1 g2 hu.2
      | some (s, t) =>
        obtain ⟨k1, k2, k3, k4⟩ := h2
        refine ⟨le_trans hs0 k1, k2, le_trans k3 hs1, fun u => ?_⟩
        rw [← k4 u, sat_cons]
        constructor
        · rintro ⟨a1, a2, a3, a4⟩
          obtain ⟨g1, g2⟩ := (hiff u a1 a2).1 a3
          exact ⟨g1, g2, a4⟩
        · rintro ⟨a1, a2, a3⟩
          have b1 := le_trans hs0 a1
          have b2 := le_trans a2 hs1
          exact ⟨b1, b2, (hiff u b1 b2).2 ⟨a1, a2⟩, a3⟩
    unfold lbLoop
    by_cases hp : p = 0
    · subst hp
      rw [if_pos (by simp)]
      by_cases hq : q < 0
      · rw [if_pos hq]
        refine ⟨none, rfl, fun u _ _ hu => ?_⟩
        rw [sat_cons] at hu
        have := hu.1
        simp only [mul_zero] at this
        linarith
      · rw [if_neg hq]
        exact step t0 t1 h (le_refl _) (le_refl _) (fun u h0 h1 => by simp only [mul_zero]; exact ⟨fun _ => ⟨h0, h1⟩, fun _ => not_lt.1 hq⟩)
    rw [if_neg (by simpa using hp), fdiv_eq hp, ok_bind]
    rcases lt_or_gt_of_ne hp with hneg | hpos
    · rw [if_pos hneg]
      have hu : ∀ u, u * p ≤ q ↔ q / p ≤ u := fun u => by rw [div_le_iff_of_neg hneg]
      by_cases g1 : q / p > t1
      · rw [if_pos g1]
        refine ⟨none, rfl, fun u _ h1 hs => ?_⟩
        rw [sat_cons, hu] at hs
        have := hs.1
        linarith
      rw [if_neg g1]
      by_cases g2 : q / p > t0
      · rw [if_pos g2]
        exact step _ t1 (not_lt.1 g1) g2.le (le_refl _) (fun u h0 h1 => by rw [hu]; exact ⟨fun h => ⟨h, h1⟩, fun h => h.1⟩)
      · rw [if_neg g2]
        exact step t0 t1 h (le_refl _) (le_refl _)
          (fun u h0 h1 => by rw [hu]; exact ⟨fun h => ⟨h0, h1⟩, fun h => le_trans (not_lt.1 g2) h0⟩)
    · rw [if_neg (not_lt.2 hpos.le), if_pos hpos]
      have hu : ∀ u, u * p ≤ q ↔ u ≤ q / p := fun u => by rw [le_div_iff₀ hpos]
      by_cases g1 : q / p < t0
      · rw [if_pos g1]
        refine ⟨none, rfl, fun u h0 _ hs => ?_⟩
        rw [sat_cons, hu] at hs
        have := hs.1
        linarith
      rw [if_neg g1]
      by_cases g2 : q / p < t1
      · rw [if_pos g2]
        exact step t0 _ (not_lt.1 g1) (le_refl _) g2.le (fun u h0 h1 => by rw [hu]; exact ⟨fun h => ⟨h0, h⟩, fun h => h.2⟩)
      · rw [if_neg g2]
        exact step t0 t1 h (le_refl _) (le_refl _)
          (fun u h0 h1 => by rw [hu]; exact ⟨fun h => ⟨h0, h1⟩, fun h => le_trans h1 (not_lt.1 g2)⟩)

theorem pointInsideBox_imp {box : Box K} {a : Pt K} (h : pointInsideBox a box = true) : InBox box a := by
  unfold pointInsideBox at h
  simp only [Bool.and_eq_true, decide_eq_true_eq] at h
  exact ⟨h.1.1.1.le, h.1.1.2.le, h.1.2.le, h.2.le⟩

/-- Liang-Barsky clips. -/
theorem liangBarsky_spec (box : Box K) (a b : Pt K) :
    ∃ r, liangBarsky a b box = .ok r ∧ (a = b → r = none) ∧ (a ≠ b → ClipSpec a b (InBox box) r) := by
  unfold liangBarsky
  by_cases hab : a = b
  · rw [if_pos ((eqv_zero a b).2 hab)]
    exact ⟨none, rfl, fun _ => rfl, fun h => (h hab).elim⟩
  rw [if_neg ((not_congr (eqv_zero a b)).2 hab)]
  by_cases hin : (pointInsideBox a box && pointInsideBox b box) = true
  · rw [if_pos hin]
    rw [Bool.and_eq_true] at hin
    have ha := pointInsideBox_imp hin.1
    have hb := pointInsideBox_imp hin.2
    refine ⟨_, rfl, fun h => (hab h).elim, fun _ => ⟨0, 1, le_refl _, one_pos, le_refl _, (lineAt_zero a b).symm,
      (lineAt_one a b).symm, fun u h0 h1 => ⟨fun _ => ⟨h0, h1⟩, fun _ => inBox_convex ha hb h0 h1⟩⟩⟩
  rw [if_neg hin]
  obtain ⟨r, h1, h2⟩ := lbLoop_spec [(-(b.x - a.x), a.x - box.xmin), (b.x - a.x, box.xmax - a.x),
    (-(b.y - a.y), a.y - box.ymin), (b.y - a.y, box.ymax - a.y)] (0 : K) 1 zero_le_one
  have hsat : ∀ u, LbSat [(-(b.x - a.x), a.x - box.xmin), (b.x - a.x, box.xmax - a.x),
      (-(b.y - a.y), a.y - box.ymin), (b.y - a.y, box.ymax - a.y)] u ↔ InBox box (lineAt a b u) := by
    intro u
    simp only [sat_cons, InBox, lineAt]
    constructor
    · rintro ⟨g1, g2, g3, g4, _⟩
      refine ⟨?_, ?_, ?_, ?_⟩ <;> linarith
    · rintro ⟨g1, g2, g3, g4⟩
      refine ⟨?_, ?_, ?_, ?_, by simp [LbSat]⟩ <;> linarith
  rw [h1, ok_bind]
  match r with
  | none =>
    refine ⟨none, rfl, fun _ => rfl, fun _ u v h0 huv hv1 hu => ?_⟩
    exact (h2 u h0 (by linarith) ((hsat u).2 hu)).elim
  | some (s, t) =>
    obtain ⟨k1, k2, k3, k4⟩ := h2
    simp only
    by_cases hst : s = t
    · rw [if_pos (by simpa using hst)]
      refine ⟨none, rfl, fun _ => rfl, fun _ => ClipSpec.of_point s fun v h0 h1 h => ?_⟩
      obtain ⟨m1, m2⟩ := (k4 v).1 ⟨h0, h1, (hsat v).2 h⟩
      rw [← hst] at m2
      exact le_antisymm m2 m1
    · rw [if_neg (by simpa using hst)]
      refine ⟨_, rfl, fun h => (hab h).elim, fun _ => ⟨s, t, k1, lt_of_le_of_ne k2 hst, k3, rfl, rfl, fun u h0 h1 => ?_⟩⟩
      rw [← k4 u, hsat]
      exact ⟨fun h => ⟨h0, h1, h⟩, fun h => h.2.2⟩

end Celltree
