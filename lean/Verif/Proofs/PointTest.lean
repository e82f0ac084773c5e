import Verif.Proofs.Sides
import Verif.Proofs.Core
import Verif.Model.Geom
import Mathlib.Tactic.Linarith
import Mathlib.Tactic.Ring
import Mathlib.Tactic.FieldSimp

/-!
# The point-in-polygon test in exact arithmetic
-/

set_option linter.unusedSectionVars false

namespace Celltree

variable {K : Type} [Field K] [LinearOrder K] [IsStrictOrderedRing K]

theorem fmin_eq (a b : K) : fmin a b = min a b := by
  unfold fmin
  split
  · rw [min_eq_right (by linarith)]
  · rw [min_eq_left (by linarith)]

theorem fmax_eq (a b : K) : fmax a b = max a b := by
  unfold fmax
  split
  · rw [max_eq_right (by linarith)]
  · rw [max_eq_left (by linarith)]

theorem fabs_eq (a : K) : fabs a = |a| := by
  unfold fabs
  split
  · rw [abs_of_neg ‹_›]
  · rw [abs_of_nonneg (by linarith)]

theorem fdiv_eq {x y : K} (h : y ≠ 0) : fdiv x y = .ok (x / y) := by
  unfold fdiv
  simp [h]

theorem eqv_iff (a b : Pt K) : a.eqv b = true ↔ a = b := by
  cases a; cases b
  simp [Pt.eqv]

theorem orient_div (p a b : Pt K) (h : b.y - a.y ≠ 0) :
    p.x < (b.x - a.x) * (p.y - a.y) / (b.y - a.y) + a.x ↔ 0 < orient a b p / (b.y - a.y) := by
  have key : (b.x - a.x) * (p.y - a.y) / (b.y - a.y) + a.x - p.x = orient a b p / (b.y - a.y) := by
    unfold orient; field_simp; ring
  rw [← key, sub_pos]

theorem rayCrosses_eq (p a b : Pt K) : rayCrosses p a b = .ok (decide (Crosses p (a, b))) := by
  unfold rayCrosses
  by_cases h : (p.y < a.y) = (p.y < b.y)
  · have : (decide (a.y > p.y) != decide (b.y > p.y)) = false := by simp [h]
    rw [this]
    simp only [Bool.false_eq_true, if_false]
    congr 1
    symm
    rw [decide_eq_false_iff_not]
    rintro (⟨h1, h2, _⟩ | ⟨h1, h2, _⟩)
    · simp only at h1 h2
      have := h.symm ▸ h2
      linarith
    · simp only at h1 h2
      have := h ▸ h2
      linarith
  · have hne : b.y - a.y ≠ 0 := by
      intro h'
      apply h
      rw [show b.y = a.y by linarith]
    have : (decide (a.y > p.y) != decide (b.y > p.y)) = true := by
      rw [bne_iff_ne]
      intro h'
      apply h
      simpa using h'
    rw [this]
    simp only [if_true, fdiv_eq hne, ok_bind]
    congr 1
    rw [decide_eq_decide, orient_div p a b hne, div_pos_iff]
    unfold Crosses
    simp only [eq_iff_iff, not_iff, not_lt] at h
    simp only
    constructor
    · rintro (⟨h1, h2⟩ | ⟨h1, h2⟩)
      · left
        rcases le_or_gt a.y p.y with h' | h'
        · exact ⟨h', h.1 h', h1⟩
        · have := h.2 (by linarith)
          linarith
      · right
        rcases le_or_gt a.y p.y with h' | h'
        · have := h.1 h'
          linarith
        · refine ⟨?_, h', h1⟩
          by_contra h''
          have := h.2 (not_le.1 h'')
          linarith
    · rintro (⟨h1, h2, h3⟩ | ⟨h1, h2, h3⟩)
      · left; exact ⟨h3, by linarith⟩
      · right; exact ⟨h3, by linarith⟩

theorem within_eq (c : K) (U : Pt K) (tol : K) :
    withinPerpendicularDistance c U tol = decide (c ^ 2 < tol ^ 2 * (U.x ^ 2 + U.y ^ 2)) := by
  unfold withinPerpendicularDistance lengthSquared
  rw [decide_eq_decide]
  have e1 : c * c = c ^ 2 := by ring
  have e2 : tol * (U.x * U.x + U.y * U.y) * tol = tol ^ 2 * (U.x ^ 2 + U.y ^ 2) := by ring
  rw [e1, e2]

theorem abs_max_sub_min (a b : K) : |max a b - min a b| = |b - a| := by
  rcases le_total a b with h | h
  · rw [max_eq_right h, min_eq_left h]
  · rw [max_eq_left h, min_eq_right h, abs_sub_comm]

theorem inBounds_iff (p a b : Pt K) : inBounds p a b = true ↔
    (|b.y - a.y| ≤ |b.x - a.x| → min a.x b.x ≤ p.x ∧ p.x ≤ max a.x b.x) ∧
    (|b.x - a.x| < |b.y - a.y| → min a.y b.y ≤ p.y ∧ p.y ≤ max a.y b.y) := by
  unfold inBounds
  simp only [fmin_eq, fmax_eq, fabs_eq, abs_max_sub_min, ge_iff_le, Bool.or_eq_true, Bool.and_eq_true,
    decide_eq_true_eq, Bool.not_eq_true', decide_eq_false_iff_not, not_le]
  by_cases h : |b.y - a.y| ≤ |b.x - a.x|
  · have h' : ¬ |b.x - a.x| < |b.y - a.y| := not_lt.2 h
    simp [h, h']
  · push Not at h
    have h' : ¬ |b.y - a.y| ≤ |b.x - a.x| := not_le.2 h
    simp [h, h']

theorem near_iff (tol : K) (p a b : Pt K) (hab : a ≠ b) :
    (withinPerpendicularDistance (cross (toVector p a) (toVector p b)) (toVector a b) tol && inBounds p a b) = true ↔
      Near tol p (a, b) := by
  rw [Bool.and_eq_true, inBounds_iff, within_eq, decide_eq_true_eq]
  have : cross (toVector p a) (toVector p b) = orient a b p := by unfold cross toVector orient; ring
  rw [this]
  unfold Near dist2 toVector
  simp only
  constructor
  · rintro ⟨h1, h2, h3⟩; exact ⟨hab, h1, h2, h3⟩
  · rintro ⟨_, h1, h2, h3⟩; exact ⟨h1, h2, h3⟩

theorem not_crosses_same (p a : Pt K) : ¬ Crosses p (a, a) := by
  rintro (⟨h1, h2, _⟩ | ⟨h1, h2, _⟩) <;> simp only at h1 h2 <;> linarith

theorem not_near_same (tol : K) (p a : Pt K) : ¬ Near tol p (a, a) := fun h => h.1 rfl

theorem pointLoop_eq (p : Pt K) (tol : K) (v0 : Pt K) (l : List (Pt K)) (c : Bool) :
    ∃ b, pointInPolygonOrOnEdgeLoop p tol v0 (toVector p v0) l c = .ok b ∧
      (b = true ↔ (∃ s ∈ pairs (v0 :: l), Near tol p s) ∨
        Odd ((if c then 1 else 0) + (pairs (v0 :: l)).countP fun s => decide (Crosses p s))) := by
  induction l generalizing v0 c with
  | nil =>
    refine ⟨c, rfl, ?_⟩
    cases c <;> simp
  | cons v1 l ih =>
    unfold pointInPolygonOrOnEdgeLoop
    by_cases he : v1 = v0
    · rw [if_pos ((eqv_iff v1 v0).2 he)]
      subst he
      obtain ⟨b, h1, h2⟩ := ih v1 c
      refine ⟨b, h1, h2.trans ?_⟩
      simp only [pairs_cons_cons, List.countP_cons, not_crosses_same, decide_false, Bool.false_eq_true, if_false,
        Nat.add_zero, List.mem_cons, exists_eq_or_imp, not_near_same, false_or]
    · rw [if_neg (fun h => he ((eqv_iff v1 v0).1 h))]
      simp only
      by_cases hn : Near tol p (v0, v1)
      · rw [if_pos ((near_iff tol p v0 v1 (Ne.symm he)).2 hn)]
        exact ⟨true, rfl, by simp [hn]⟩
      · rw [if_neg (fun h => hn ((near_iff tol p v0 v1 (Ne.symm he)).1 h)), rayCrosses_eq, ok_bind]
        obtain ⟨b, h1, h2⟩ := ih v1 (if decide (Crosses p (v0, v1)) = true then !c else c)
        refine ⟨b, h1, h2.trans ?_⟩
        simp only [pairs_cons_cons, List.countP_cons, List.mem_cons, exists_eq_or_imp, hn, false_or]
        apply or_congr Iff.rfl
        by_cases hc : Crosses p (v0, v1)
        · simp only [hc, decide_true, if_true]
          cases c <;> simp only [Bool.not_false, Bool.not_true, if_true, Bool.false_eq_true, if_false] <;>
            simp only [Nat.odd_iff] <;> omega
        · simp [hc]

theorem Accepts.of_perm {tol : K} {p : Pt K} {l l' : List (Pt K)} (h : (sides l).Perm (sides l')) :
    Accepts tol l p ↔ Accepts tol l' p := by
  unfold Accepts
  rw [h.countP_eq]
  simp only [h.mem_iff]

/-- The test of the code decides `Accepts`. -/
theorem pointInPolygonOrOnEdge_eq (p : Pt K) {poly : List (Pt K)} (hne : poly ≠ []) (tol : K) :
    ∃ b, pointInPolygonOrOnEdge p poly tol = .ok b ∧ (b = true ↔ Accepts tol poly p) := by
  cases poly with
  | nil => exact (hne rfl).elim
  | cons a l =>
    unfold pointInPolygonOrOnEdge
    rw [rdI_last hne, ok_bind]
    obtain ⟨b, h1, h2⟩ := pointLoop_eq p tol ((a :: l).getLast hne) (a :: l) false
    refine ⟨b, h1, h2.trans ?_⟩
    unfold Accepts
    rw [(sides_perm a l).countP_eq]
    simp only [(sides_perm a l).mem_iff, Bool.false_eq_true, if_false, Nat.zero_add]

theorem orient_swap (a b p : Pt K) : orient b a p = - orient a b p := by unfold orient; ring

theorem crosses_swap (p : Pt K) (s : Pt K × Pt K) : Crosses p s.swap ↔ Crosses p s := by
  unfold Crosses
  simp only [Prod.fst_swap, Prod.snd_swap, orient_swap s.1 s.2, neg_pos, neg_lt_zero]
  exact or_comm

theorem dist2_comm (a b : Pt K) : dist2 b a = dist2 a b := by unfold dist2; ring

theorem near_swap (tol : K) (p : Pt K) (s : Pt K × Pt K) : Near tol p s.swap ↔ Near tol p s := by
  unfold Near
  simp only [Prod.fst_swap, Prod.snd_swap, orient_swap s.1 s.2, neg_sq, dist2_comm s.1 s.2, ne_comm (a := s.2),
    abs_sub_comm s.1.x, abs_sub_comm s.1.y, min_comm s.2.x, min_comm s.2.y, max_comm s.2.x, max_comm s.2.y]

/-- Acceptance does not depend on the orientation. -/
theorem accepts_reverse (tol : K) (p : Pt K) (l : List (Pt K)) : Accepts tol l.reverse p ↔ Accepts tol l p := by
  unfold Accepts
  rw [(sides_reverse l).countP_eq, List.countP_map]
  simp only [(sides_reverse l).mem_iff, List.mem_map]
  apply or_congr
  · constructor
    · rintro ⟨_, ⟨s, hs, rfl⟩, h⟩
      exact ⟨s, hs, (near_swap tol p s).1 h⟩
    · rintro ⟨s, hs, h⟩
      exact ⟨s.swap, ⟨s, hs, rfl⟩, (near_swap tol p s).2 h⟩
  · have : (fun s => decide (Crosses p s)) ∘ Prod.swap = fun s : Pt K × Pt K => decide (Crosses p s) := by
      funext s
      simp only [Function.comp_apply, decide_eq_decide]
      exact crosses_swap p s
    rw [this]

theorem near_mono {tol tol' : K} (h0 : 0 ≤ tol) (h : tol ≤ tol') {p : Pt K} {s : Pt K × Pt K} (hn : Near tol p s) :
    Near tol' p s := by
  refine ⟨hn.1, lt_of_lt_of_le hn.2.1 ?_, hn.2.2⟩
  apply mul_le_mul_of_nonneg_right
  · exact pow_le_pow_left₀ h0 h 2
  · unfold dist2; positivity

theorem not_near_zero (p : Pt K) (s : Pt K × Pt K) : ¬ Near 0 p s := by
  rintro ⟨_, h, _⟩
  have := sq_nonneg (orient s.1 s.2 p)
  rw [zero_pow two_ne_zero, zero_mul] at h
  linarith

/-- A polygon whose ray count is odd has the point in its closed bounding box: there is a corner on every side of it. -/
theorem odd_in_box {p : Pt K} {l : List (Pt K)} (h : Odd ((sides l).countP fun s => decide (Crosses p s))) :
    (∃ v ∈ l, v.x ≤ p.x) ∧ (∃ v ∈ l, p.x ≤ v.x) ∧ (∃ v ∈ l, v.y ≤ p.y) ∧ (∃ v ∈ l, p.y ≤ v.y) := by
  have hpos : 0 < (sides l).countP fun s => decide (Crosses p s) := h.pos
  obtain ⟨s, hs, hc⟩ := List.countP_pos_iff.1 hpos
  rw [decide_eq_true_eq] at hc
  obtain ⟨m1, m2⟩ := mem_sides_mem hs
  have hx : ∀ a b : Pt K, a.y ≤ p.y → p.y < b.y → 0 < orient a b p → p.x ≤ a.x ∨ p.x ≤ b.x := by
    intro a b h1 h2 h3
    by_contra hh
    push Not at hh
    unfold orient at h3
    nlinarith [mul_nonneg (sub_nonneg.2 h1) (sub_nonneg.2 hh.2.le), mul_pos (sub_pos.2 h2) (sub_pos.2 hh.1),
      mul_nonneg (sub_nonneg.2 h1) (sub_nonneg.2 hh.1.le)]
  have hx' : ∀ a b : Pt K, a.y ≤ p.y → p.y < b.y → orient a b p ≤ 0 → a.x ≤ p.x ∨ b.x ≤ p.x := by
    intro a b h1 h2 h3
    by_contra hh
    push Not at hh
    unfold orient at h3
    nlinarith [mul_nonneg (sub_nonneg.2 h1) (sub_nonneg.2 hh.2.le), mul_pos (sub_pos.2 h2) (sub_pos.2 hh.1),
      mul_nonneg (sub_nonneg.2 h1) (sub_nonneg.2 hh.1.le)]
  refine ⟨?_, ?_, ?_, ?_⟩
  · -- the number of sides that straddle the level of `p` is even: one of them is not crossed
    by_contra hno
    push Not at hno
    have hall : ∀ s ∈ sides l, decide (Crosses p s) = (decide (p.y < s.1.y) != decide (p.y < s.2.y)) := by
      intro s hs
      obtain ⟨m1, m2⟩ := mem_sides_mem hs
      by_cases h1 : p.y < s.1.y <;> by_cases h2 : p.y < s.2.y
      · simp only [h1, h2, decide_true, bne_self_eq_false, decide_eq_false_iff_not]
        rintro (⟨g, _⟩ | ⟨g, _⟩) <;> linarith
      · simp only [h1, h2, decide_true, decide_false, Bool.true_bne, Bool.not_false, decide_eq_true_eq]
        right
        refine ⟨not_lt.1 h2, h1, ?_⟩
        by_contra hh
        have := hx' s.2 s.1 (not_lt.1 h2) h1 (by rw [orient_swap]; linarith)
        rcases this with h | h
        · linarith [hno _ m2]
        · linarith [hno _ m1]
      · simp only [h1, h2, decide_true, decide_false, Bool.false_bne, decide_eq_true_eq]
        left
        refine ⟨not_lt.1 h1, h2, ?_⟩
        by_contra hh
        have := hx' s.1 s.2 (not_lt.1 h1) h2 (by linarith)
        rcases this with h | h
        · linarith [hno _ m1]
        · linarith [hno _ m2]
      · simp only [h1, h2, decide_false, bne_self_eq_false, decide_eq_false_iff_not]
        rintro (⟨_, g, _⟩ | ⟨_, g, _⟩)
        · exact h2 g
        · exact h1 g
    have := even_changes (fun v : Pt K => decide (p.y < v.y)) l
    have e : (sides l).countP (fun s => decide (Crosses p s)) =
        (sides l).countP (fun s => decide (p.y < s.1.y) != decide (p.y < s.2.y)) :=
      List.countP_congr (fun s hs => by rw [hall s hs])
    rw [← e] at this
    exact Nat.not_even_iff_odd.2 h this
  · rcases hc with ⟨h1, h2, h3⟩ | ⟨h1, h2, h3⟩
    · rcases hx _ _ h1 h2 h3 with h | h
      · exact ⟨_, m1, h⟩
      · exact ⟨_, m2, h⟩
    · rcases hx _ _ h1 h2 (by rw [orient_swap]; linarith) with h | h
      · exact ⟨_, m2, h⟩
      · exact ⟨_, m1, h⟩
  · rcases hc with ⟨h1, h2, h3⟩ | ⟨h1, h2, h3⟩
    · exact ⟨_, m1, h1⟩
    · exact ⟨_, m2, h1⟩
  · rcases hc with ⟨h1, h2, h3⟩ | ⟨h1, h2, h3⟩
    · exact ⟨_, m2, h2.le⟩
    · exact ⟨_, m1, h2.le⟩

end Celltree
