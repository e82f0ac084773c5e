import Verif.Proofs.AxisEdges
import Verif.Proofs.FloatEdges
import Verif.Proofs.FaceEdges
import Verif.Proofs.FloatBuild

/-!
# Which children an edge visits, in binary64

The signs of rounded differences and quotients are right, so no child is skipped that the edge may reach.
-/

namespace Celltree.Fl

theorem isRep_one : IsRep 1 := by
  have := isRep_nat (n := 1) (by norm_num)
  simpa using this

theorem one_le_max : |(1 : ℚ)| ≤ maxNat := by
  rw [abs_one]
  exact (pow_zero (2 : ℚ)).symm.le.trans (pow_le_big (by norm_num))

theorem zero_le_max : |(0 : ℚ)| ≤ maxNat := (by rw [abs_zero]; exact abs_nonneg _ : |(0 : ℚ)| ≤ |(1 : ℚ)|).trans one_le_max

theorem sub_nonneg_fl {m : ℚ} {L : Fl} (h : fin m ≤ L) : 0 ≤ L - fin m := by
  cases L with
  | nan => exact absurd h (by simp [le_def, Fl.le])
  | ninf => exact absurd h (by simp [le_def, Fl.le])
  | pinf => exact rfl
  | fin l =>
    rw [le_fin] at h
    rw [fin_sub, zero_def]
    exact le_rnd isRep_zero zero_le_max (sub_nonneg.2 h)

theorem sub_nonpos_fl {m : ℚ} {L : Fl} (h : L ≤ fin m) : L - fin m ≤ 0 := by
  cases L with
  | nan => exact absurd h (by simp [le_def, Fl.le])
  | pinf => exact absurd h (by simp [le_def, Fl.le])
  | ninf => exact rfl
  | fin l =>
    rw [le_fin] at h
    rw [fin_sub, zero_def]
    exact rnd_le isRep_zero zero_le_max (sub_nonpos.2 h)

theorem nonneg_cases {x : Fl} (h : 0 ≤ x) : x = pinf ∨ ∃ q, 0 ≤ q ∧ x = fin q := by
  cases x with
  | nan => exact absurd h (by decide)
  | ninf => exact absurd h (by decide)
  | pinf => exact Or.inl rfl
  | fin l => exact Or.inr ⟨l, by rwa [zero_def, le_fin] at h, rfl⟩

theorem nonpos_cases {x : Fl} (h : x ≤ 0) : x = ninf ∨ ∃ q, q ≤ 0 ∧ x = fin q := by
  cases x with
  | nan => exact absurd h (by decide)
  | pinf => exact absurd h (by decide)
  | ninf => exact Or.inl rfl
  | fin l => exact Or.inr ⟨l, by rwa [zero_def, le_fin] at h, rfl⟩

theorem pinf_div {d : ℚ} (h : ¬ d < 0) : pinf / fin d = pinf := by
  show (if d < 0 then ninf else pinf) = _; rw [if_neg h]

theorem pinf_div_neg {d : ℚ} (h : d < 0) : pinf / fin d = ninf := by
  show (if d < 0 then ninf else pinf) = _; rw [if_pos h]

theorem ninf_div {d : ℚ} (h : ¬ d < 0) : ninf / fin d = ninf := by
  show (if d < 0 then pinf else ninf) = _; rw [if_neg h]

theorem ninf_div_neg {d : ℚ} (h : d < 0) : ninf / fin d = pinf := by
  show (if d < 0 then pinf else ninf) = _; rw [if_pos h]

theorem div_nonneg_fl {x : Fl} {d : ℚ} (h : 0 ≤ x) (hd : 0 < d) : 0 ≤ x / fin d := by
  rcases nonneg_cases h with rfl | ⟨q, hq, rfl⟩
  · rw [pinf_div hd.not_gt]; rfl
  · rw [fin_div _ _ hd.ne', zero_def]
    exact le_rnd isRep_zero zero_le_max (div_nonneg hq hd.le)

theorem div_nonpos_fl {x : Fl} {d : ℚ} (h : x ≤ 0) (hd : 0 < d) : x / fin d ≤ 0 := by
  rcases nonpos_cases h with rfl | ⟨q, hq, rfl⟩
  · rw [ninf_div hd.not_gt]; rfl
  · rw [fin_div _ _ hd.ne', zero_def]
    exact rnd_le isRep_zero zero_le_max (div_nonpos_of_nonpos_of_nonneg hq hd.le)

theorem div_nonpos_fl' {x : Fl} {d : ℚ} (h : 0 ≤ x) (hd : d < 0) : x / fin d ≤ 0 := by
  rcases nonneg_cases h with rfl | ⟨q, hq, rfl⟩
  · rw [pinf_div_neg hd]; rfl
  · rw [fin_div _ _ hd.ne, zero_def]
    exact rnd_le isRep_zero zero_le_max (div_nonpos_of_nonneg_of_nonpos hq hd.le)

theorem div_nonneg_fl' {x : Fl} {d : ℚ} (h : x ≤ 0) (hd : d < 0) : 0 ≤ x / fin d := by
  rcases nonpos_cases h with rfl | ⟨q, hq, rfl⟩
  · rw [ninf_div_neg hd]; rfl
  · rw [fin_div _ _ hd.ne, zero_def]
    exact le_rnd isRep_zero zero_le_max (div_nonneg_of_nonpos hq hd.le)

theorem le_one_of_nonpos {x : Fl} (h : x ≤ 0) : x ≤ 1 := by
  rcases nonpos_cases h with rfl | ⟨q, hq, rfl⟩
  · rfl
  · rw [one_def, le_fin]; linarith

theorem one_sub_nonneg {x : Fl} (h : x ≤ 0) : 0 ≤ 1 - x := by
  rcases nonpos_cases h with rfl | ⟨q, hq, rfl⟩
  · rfl
  · rw [one_def, zero_def, fin_sub]
    exact le_rnd isRep_zero zero_le_max (by linarith)

theorem one_sub_le_one {x : Fl} (h : 0 ≤ x) : 1 - x ≤ 1 := by
  rcases nonneg_cases h with rfl | ⟨q, hq, rfl⟩
  · rfl
  · rw [one_def, fin_sub]
    exact rnd_le isRep_one one_le_max (by linarith)

theorem fdiv_eq_fl {x : Fl} {d : ℚ} (hd : d ≠ 0) : fdiv x (fin d) = .ok (x / fin d) := by
  unfold fdiv
  rw [beq_fin_zero, decide_eq_false hd]; rfl

/-- The children that are visited. -/
theorem edgeSides_complete (nd : Node Fl) {a b : Pt ℚ} (ha : ModPt a) (hb : ModPt b) :
    ∃ l r, edgeSides nd (fp a) (fp b) (toVector (fp a) (fp b)) = .ok (l, r) ∧
      (fin (min (a.get nd.dim) (b.get nd.dim)) ≤ nd.Lmax → l = true) ∧
      (nd.Rmin ≤ fin (max (a.get nd.dim) (b.get nd.dim)) → r = true) := by
  have ga : (fp a).get nd.dim = fin (a.get nd.dim) := by unfold Pt.get fp; cases nd.dim <;> rfl
  have gb : (fp b).get nd.dim = fin (b.get nd.dim) := by unfold Pt.get fp; cases nd.dim <;> rfl
  have ma : Mod (a.get nd.dim) := by unfold Pt.get; cases nd.dim; exacts [ha.1, ha.2]
  have mb : Mod (b.get nd.dim) := by unfold Pt.get; cases nd.dim; exacts [hb.1, hb.2]
  have hV : (toVector (fp a) (fp b)).get nd.dim = fin (rq (b.get nd.dim - a.get nd.dim)) := by
    rw [toVector_fin ha hb]
    unfold Pt.get; cases nd.dim <;> rfl
  unfold edgeSides
  rw [hV, ga, gb]
  revert ma mb
  generalize a.get nd.dim = x
  generalize b.get nd.dim = y
  intro ma mb
  rw [zero_def]
  simp only [gt_iff_lt, ge_iff_le, lt_fin]
  rw [← zero_def]
  rcases lt_trichotomy x y with h | h | h
  · have hd := rq_sub_ne ma.1 mb.1 h
    simp only [hd, if_true, fdiv_eq_fl hd.ne', ok_bind]
    rw [min_eq_left h.le, max_eq_right h.le]
    refine ⟨if 0 ≤ nd.Lmax - fin x then decide (0 ≤ (nd.Lmax - fin x) / fin (rq (y - x))) else false,
      if nd.Rmin - fin y ≤ 0 then decide ((nd.Rmin - fin y) / fin (rq (y - x)) ≤ 1) else false, ?_, ?_, ?_⟩
    · by_cases h1 : 0 ≤ nd.Lmax - fin x <;> by_cases h2 : nd.Rmin - fin y ≤ 0 <;> simp [h1, h2]
    · intro h1
      have h2 := sub_nonneg_fl h1
      rw [if_pos h2, decide_eq_true (div_nonneg_fl h2 hd)]
    · intro h1
      have h2 := sub_nonpos_fl h1
      rw [if_pos h2, decide_eq_true (le_one_of_nonpos (div_nonpos_fl h2 hd))]
  · subst h
    rw [sub_self, rq_zero]
    simp only [lt_irrefl, if_false, min_self, max_self]
    exact ⟨_, _, rfl, fun h => decide_eq_true (sub_nonneg_fl h), fun h => decide_eq_true (sub_nonpos_fl h)⟩
  · have hd : rq (y - x) < 0 := by
      have := rq_sub_ne mb.1 ma.1 h
      rw [show x - y = -(y - x) by ring, rq_neg] at this
      linarith
    simp only [hd.not_gt, hd, if_true, if_false, fdiv_eq_fl hd.ne, ok_bind]
    rw [min_eq_right h.le, max_eq_left h.le]
    refine ⟨if 0 ≤ nd.Lmax - fin y then decide (0 ≤ 1 - (nd.Lmax - fin y) / fin (rq (y - x))) else false,
      if nd.Rmin - fin x ≤ 0 then decide (1 - (nd.Rmin - fin x) / fin (rq (y - x)) ≤ 1) else false, ?_, ?_, ?_⟩
    · by_cases h1 : 0 ≤ nd.Lmax - fin y <;> by_cases h2 : nd.Rmin - fin x ≤ 0 <;> simp [h1, h2]
    · intro h1
      have h2 := sub_nonneg_fl h1
      rw [if_pos h2, decide_eq_true (one_sub_nonneg (div_nonpos_fl' h2 hd))]
    · intro h1
      have h2 := sub_nonpos_fl h1
      rw [if_pos h2, decide_eq_true (one_sub_le_one (div_nonneg_fl' h2 hd))]

theorem edgeSel_left_fl {nd : Node Fl} {a b : Pt ℚ} (ha : ModPt a) (hb : ModPt b)
    (h : fin (min (a.get nd.dim) (b.get nd.dim)) ≤ nd.Lmax) : false ∈ edgeSel (fp a) (fp b) nd := by
  obtain ⟨l, r, h1, h2, _⟩ := edgeSides_complete nd ha hb
  unfold edgeSel
  rw [h1]
  simp [h2 h]

theorem edgeSel_right_fl {nd : Node Fl} {a b : Pt ℚ} (ha : ModPt a) (hb : ModPt b)
    (h : nd.Rmin ≤ fin (max (a.get nd.dim) (b.get nd.dim))) : true ∈ edgeSel (fp a) (fp b) nd := by
  obtain ⟨l, r, h1, _, h2⟩ := edgeSides_complete nd ha hb
  unfold edgeSel
  rw [h1]
  simp [h2 h]

/-- The traversal goes down to every cell whose box meets the segment. -/
theorem edge_goes_down_fl {a b : Pt ℚ} (ha : ModPt a) (hb : ModPt b) {c : Box ℚ} {s : ℚ} (h0 : 0 ≤ s) (h1 : s ≤ 1)
    (h : InBox c (lineAt a b s)) (nd : Node Fl) :
    ((fbox c).hi nd.dim ≤ nd.Lmax → false ∈ edgeSel (fp a) (fp b) nd) ∧
      (nd.Rmin ≤ (fbox c).lo nd.dim → true ∈ edgeSel (fp a) (fp b) nd) := by
  obtain ⟨g1, g2⟩ := h.get nd.dim
  rw [lineAt_get] at g1 g2
  have e1 : (fbox c).hi nd.dim = fin (c.hi nd.dim) := by unfold Box.hi fbox; cases nd.dim <;> rfl
  have e2 : (fbox c).lo nd.dim = fin (c.lo nd.dim) := by unfold Box.lo fbox; cases nd.dim <;> rfl
  rw [e1, e2]
  constructor
  · intro h
    refine edgeSel_left_fl ha hb (NumOrd.le_trans ?_ h)
    rw [le_fin]
    exact (min_le_lineAt _ _ s h0 h1).trans g2
  · intro h
    refine edgeSel_right_fl ha hb (NumOrd.le_trans h ?_)
    rw [le_fin]
    exact g1.trans (lineAt_le_max _ _ s h0 h1)

end Celltree.Fl
