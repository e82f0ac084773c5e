import Verif.Proofs.Lines

/-!
# Segments on the same line, and how close reported segments are
-/

set_option linter.unusedSectionVars false

namespace Celltree

variable {K : Type} [Field K] [LinearOrder K] [IsStrictOrderedRing K]

/-! ## Reported segments are close -/

/-- Positions for which the points on both segments are close. -/
def ClosePos (s s' u w : K) : Prop :=
  (u = s ∧ w = 0) ∨ (u = s' ∧ w = 1) ∨ (u = 1 ∧ w = 0 ∧ 1 ≤ s ∧ s ≤ s') ∨ (u = 1 ∧ w = 1 ∧ 1 ≤ s' ∧ s' ≤ s) ∨
  (u = 0 ∧ w = 0 ∧ s ≤ 0 ∧ s' ≤ s) ∨ (u = 0 ∧ w = 1 ∧ s' ≤ 0 ∧ s ≤ s') ∨ (u = 0 ∧ 0 ≤ w ∧ w ≤ 1 ∧ s + w * (s' - s) = 0)

theorem closePos_exists (s s' : K) : ∃ u w, 0 ≤ u ∧ u ≤ 1 ∧ 0 ≤ w ∧ w ≤ 1 ∧ ClosePos s s' u w := by
  unfold ClosePos
  by_cases h1 : 0 ≤ s ∧ s ≤ 1
  · exact ⟨s, 0, h1.1, h1.2, le_refl _, zero_le_one, Or.inl ⟨rfl, rfl⟩⟩
  by_cases h2 : 0 ≤ s' ∧ s' ≤ 1
  · exact ⟨s', 1, h2.1, h2.2, zero_le_one, le_refl _, Or.inr (Or.inl ⟨rfl, rfl⟩)⟩
  by_cases h3 : 1 ≤ s ∧ 1 ≤ s'
  · rcases le_total s s' with h | h
    · exact ⟨1, 0, zero_le_one, le_refl _, le_refl _, zero_le_one, by simp [h3.1, h]⟩
    · exact ⟨1, 1, zero_le_one, le_refl _, zero_le_one, le_refl _, by simp [h3.2, h]⟩
  by_cases h4 : s ≤ 0 ∧ s' ≤ 0
  · rcases le_total s s' with h | h
    · exact ⟨0, 1, le_refl _, zero_le_one, zero_le_one, le_refl _, by simp [h4.2, h]⟩
    · exact ⟨0, 0, le_refl _, zero_le_one, le_refl _, zero_le_one, by simp [h4.1, h]⟩
  have hw : ∃ w, 0 ≤ w ∧ w ≤ 1 ∧ s + w * (s' - s) = 0 := by
    rcases lt_or_ge s 0 with h | h
    · have h' : 0 < s' := by by_contra h'; exact h4 ⟨h.le, not_lt.1 h'⟩
      have hd : 0 < s' - s := by linarith
      refine ⟨-s / (s' - s), div_nonneg (by linarith) hd.le, (div_le_one hd).2 (by linarith), ?_⟩
      rw [div_mul_cancel₀ _ hd.ne']; ring
    · have h1' : 1 < s := by by_contra h'; exact h1 ⟨h, not_lt.1 h'⟩
      have h' : s' < 1 := by by_contra h'; exact h3 ⟨h1'.le, not_lt.1 h'⟩
      have h'' : s' < 0 := by by_contra h''; exact h2 ⟨not_lt.1 h'', h'.le⟩
      have hd : s' - s < 0 := by linarith
      refine ⟨-s / (s' - s), div_nonneg_of_nonpos (by linarith) hd.le, (div_le_one_of_neg hd).2 (by linarith), ?_⟩
      rw [div_mul_cancel₀ _ hd.ne]; ring
  obtain ⟨w, w0, w1, hw⟩ := hw
  exact ⟨0, w, le_refl _, zero_le_one, w0, w1, by simp [w0, w1, hw]⟩

theorem close_coord {tol a v p q s s' ε ε' u w : K} (hp : p = a + s * v + ε) (hq : q = a + s' * v + ε')
    (e1 : |ε| < tol) (e2 : |ε'| < tol) (ho : Overlap tol a (a + v) p q) (hu : ClosePos s s' u w) :
    |a + u * v - (p + w * (q - p))| < 3 * tol := by
  obtain ⟨o1, o2⟩ := ho
  obtain ⟨a1, a2⟩ := abs_lt.1 e1
  obtain ⟨a3, a4⟩ := abs_lt.1 e2
  rw [abs_lt]
  rcases hu with ⟨rfl, rfl⟩ | ⟨rfl, rfl⟩ | ⟨rfl, rfl, h1, h2⟩ | ⟨rfl, rfl, h1, h2⟩ | ⟨rfl, rfl, h1, h2⟩ | ⟨rfl, rfl, h1, h2⟩ |
    ⟨rfl, w0, w1, h⟩
  · exact ⟨by linarith, by linarith⟩
  · exact ⟨by linarith, by linarith⟩
  all_goals rcases le_total 0 v with hv | hv
  · rw [max_eq_right (show a ≤ a + v by linarith)] at o2
    have f1 := mul_nonneg (sub_nonneg.2 h1) hv
    have f2 := mul_nonneg (sub_nonneg.2 h2) hv
    rcases min_choice p q with e | e <;> rw [e] at o2 <;> exact ⟨by linarith, by linarith⟩
  · rw [min_eq_right (show a + v ≤ a by linarith)] at o1
    have f1 := mul_nonneg (sub_nonneg.2 h1) (neg_nonneg.2 hv)
    have f2 := mul_nonneg (sub_nonneg.2 h2) (neg_nonneg.2 hv)
    rcases max_choice p q with e | e <;> rw [e] at o1 <;> exact ⟨by linarith, by linarith⟩
  · rw [max_eq_right (show a ≤ a + v by linarith)] at o2
    have f1 := mul_nonneg (sub_nonneg.2 h1) hv
    have f2 := mul_nonneg (sub_nonneg.2 h2) hv
    rcases min_choice p q with e | e <;> rw [e] at o2 <;> exact ⟨by linarith, by linarith⟩
  · rw [min_eq_right (show a + v ≤ a by linarith)] at o1
    have f1 := mul_nonneg (sub_nonneg.2 h1) (neg_nonneg.2 hv)
    have f2 := mul_nonneg (sub_nonneg.2 h2) (neg_nonneg.2 hv)
    rcases max_choice p q with e | e <;> rw [e] at o1 <;> exact ⟨by linarith, by linarith⟩
  · rw [min_eq_left (show a ≤ a + v by linarith)] at o1
    have f1 := mul_nonneg (neg_nonneg.2 h1) hv
    have f2 := mul_nonneg (sub_nonneg.2 h2) hv
    rcases max_choice p q with e | e <;> rw [e] at o1 <;> exact ⟨by linarith, by linarith⟩
  · rw [max_eq_left (show a + v ≤ a by linarith)] at o2
    have f1 := mul_nonneg (neg_nonneg.2 h1) (neg_nonneg.2 hv)
    have f2 := mul_nonneg (sub_nonneg.2 h2) (neg_nonneg.2 hv)
    rcases min_choice p q with e | e <;> rw [e] at o2 <;> exact ⟨by linarith, by linarith⟩
  · rw [min_eq_left (show a ≤ a + v by linarith)] at o1
    have f1 := mul_nonneg (neg_nonneg.2 h1) hv
    have f2 := mul_nonneg (sub_nonneg.2 h2) hv
    rcases max_choice p q with e | e <;> rw [e] at o1 <;> exact ⟨by linarith, by linarith⟩
  · rw [max_eq_left (show a + v ≤ a by linarith)] at o2
    have f1 := mul_nonneg (neg_nonneg.2 h1) (neg_nonneg.2 hv)
    have f2 := mul_nonneg (sub_nonneg.2 h2) (neg_nonneg.2 hv)
    rcases min_choice p q with e | e <;> rw [e] at o2 <;> exact ⟨by linarith, by linarith⟩
  all_goals
    have f0 : a + 0 * v - (p + w * (q - p)) = -(1 - w) * ε - w * ε' := by
      rw [hp, hq]; linear_combination (-v) * h
    rw [f0]
    have g1 := mul_le_mul_of_nonneg_left a1.le (sub_nonneg.2 w1)
    have g2 := mul_le_mul_of_nonneg_left a2.le (sub_nonneg.2 w1)
    have g3 := mul_le_mul_of_nonneg_left a3.le w0
    have g4 := mul_le_mul_of_nonneg_left a4.le w0
    exact ⟨by linarith, by linarith⟩

/-- Reported segments come within three times the tolerance of each other. -/
theorem near_close {tol : K} {a b p q : Pt K} (htol : 0 < tol) (hg : LineGuard tol a b p q)
    (h : Straddles a b p q ∨ (NearLine tol a b p ∧ NearLine tol a b q)) :
    ∃ u w, 0 ≤ u ∧ u ≤ 1 ∧ 0 ≤ w ∧ w ≤ 1 ∧ |(lineAt a b u).x - (lineAt p q w).x| < 3 * tol ∧
      |(lineAt a b u).y - (lineAt p q w).y| < 3 * tol := by
  rcases h with h | ⟨hp, hq⟩
  · obtain ⟨u, v, u0, u1, v0, v1, h1, h2⟩ := straddles_share h
    refine ⟨u, v, u0, u1, v0, v1, ?_, ?_⟩ <;> rw [← h1, ← h2] <;> simp <;> exact htol
  · obtain ⟨hab, _, _, _, ox, oy⟩ := hg
    obtain ⟨s, εx, εy, p1, p2, p3, p4⟩ := hp.coords hab htol
    obtain ⟨s', εx', εy', q1, q2, q3, q4⟩ := hq.coords hab htol
    obtain ⟨u, w, u0, u1, w0, w1, hu⟩ := closePos_exists s s'
    exact ⟨u, w, u0, u1, w0, w1, close_coord p1 q1 p3 q3 (by rw [add_sub_cancel]; exact ox) hu,
      close_coord p2 q2 p4 q4 (by rw [add_sub_cancel]; exact oy) hu⟩

/-! ## The midpoint of the overlap -/

theorem lineAt_swap (a b : Pt K) (u : K) : lineAt b a (1 - u) = lineAt a b u := by
  apply Pt.ext' <;> simp only [lineAt] <;> ring

theorem ShareAt.swap_left {a b p q c : Pt K} (h : ShareAt a b p q c) : ShareAt b a p q c := by
  obtain ⟨u, v, u0, u1, v0, v1, h1, h2⟩ := h
  exact ⟨1 - u, v, by linarith, by linarith, v0, v1, by rw [lineAt_swap]; exact h1, h2⟩

theorem ShareAt.swap_right {a b p q c : Pt K} (h : ShareAt a b p q c) : ShareAt a b q p c := by
  obtain ⟨u, v, u0, u1, v0, v1, h1, h2⟩ := h
  exact ⟨u, 1 - v, u0, u1, by linarith, by linarith, h1, by rw [lineAt_swap]; exact h2⟩

theorem orderEnds_cases (a b : Pt K) :
    (orderEnds a b = (a, b) ∧ (a.x < b.x ∨ (a.x = b.x ∧ a.y ≤ b.y))) ∨
    (orderEnds a b = (b, a) ∧ (b.x < a.x ∨ (b.x = a.x ∧ b.y ≤ a.y))) := by
  unfold orderEnds
  split
  · rename_i h
    right
    refine ⟨rfl, ?_⟩
    simp only [gt_iff_lt, Bool.or_eq_true, decide_eq_true_eq, Bool.and_eq_true, beq_iff_eq] at h
    rcases h with h | ⟨h1, h2⟩
    · exact Or.inl h
    · exact Or.inr ⟨h1.symm, h2.le⟩
  · rename_i h
    left
    refine ⟨rfl, ?_⟩
    simp only [gt_iff_lt, Bool.or_eq_true, decide_eq_true_eq, Bool.and_eq_true, beq_iff_eq, not_or, not_and, not_lt] at h
    rcases h.1.lt_or_eq with h' | h'
    · exact Or.inl h'
    · exact Or.inr ⟨h', h.2 h'⟩

/-- The middle of two points. -/
def mid (a b : Pt K) : Pt K := ⟨(a.x + b.x) / 2, (a.y + b.y) / 2⟩

/-- The piece that two segments share is the segment from `e` to `f`. -/
def SharedPiece (a b p q e f : Pt K) : Prop := ∀ c, ShareAt a b p q c ↔ ∃ u, 0 ≤ u ∧ u ≤ 1 ∧ c = lineAt e f u

/-- The core: ends in rising order. -/
theorem midpoint_rising {a b p q : Pt K} (hx : a.x ≤ b.x) (hy : a.y ≤ b.y) (hpx : p.x ≤ q.x) (hpy : p.y ≤ q.y)
    (hab : a ≠ b) (hp : orient a b p = 0) (hq : orient a b q = 0) {c : Pt K} (hc : ShareAt a b p q c) :
    ¬ (min b.x q.x < max a.x p.x) ∧ ¬ (min b.y q.y < max a.y p.y) ∧
      SharedPiece a b p q ⟨max a.x p.x, max a.y p.y⟩ ⟨min b.x q.x, min b.y q.y⟩ := by
  have hN := dist2_pos hab
  -- positions of p and q along the line
  have pos : ∀ r : Pt K, orient a b r = 0 → ∃ s, r = lineAt a b s := by
    intro r hr
    refine ⟨((r.x - a.x) * (b.x - a.x) + (r.y - a.y) * (b.y - a.y)) / dist2 a b, ?_⟩
    apply Pt.ext'
    · simp only [lineAt]
      field_simp
      unfold dist2
      unfold orient at hr
      linear_combination (-(b.y - a.y)) * hr
    · simp only [lineAt]
      field_simp
      unfold dist2
      unfold orient at hr
      linear_combination (b.x - a.x) * hr
  obtain ⟨s, rfl⟩ := pos p hp
  obtain ⟨s', rfl⟩ := pos q hq
  have dx : 0 ≤ b.x - a.x := by linarith
  have dy : 0 ≤ b.y - a.y := by linarith
  have inj : ∀ u v, lineAt a b u = lineAt a b v → u = v := by
    intro u v h
    have h1 : a.x + u * (b.x - a.x) = a.x + v * (b.x - a.x) := congrArg Pt.x h
    have h2 : a.y + u * (b.y - a.y) = a.y + v * (b.y - a.y) := congrArg Pt.y h
    have h3 : (u - v) * (b.x - a.x) = 0 := by linarith
    have h4 : (u - v) * (b.y - a.y) = 0 := by linarith
    by_contra hne
    have hne : u - v ≠ 0 := sub_ne_zero.2 hne
    have h5 := (mul_eq_zero.1 h3).resolve_left hne
    have h6 := (mul_eq_zero.1 h4).resolve_left hne
    exact hab (Pt.ext' (by linarith) (by linarith))
  have hss : s ≤ s' := by
    by_contra hlt
    have hlt := not_le.1 hlt
    simp only [lineAt] at hpx hpy
    have z1 : (s - s') * (b.x - a.x) ≤ 0 := by linarith
    have z2 : (s - s') * (b.y - a.y) ≤ 0 := by linarith
    have hpos : 0 < s - s' := by linarith
    have e1 : b.x - a.x ≤ 0 := nonpos_of_mul_nonpos_right z1 hpos
    have e2 : b.y - a.y ≤ 0 := nonpos_of_mul_nonpos_right z2 hpos
    exact hab (Pt.ext' (by linarith) (by linarith))
  have mx : ∀ (d u v z : K), 0 ≤ d → max (z + u * d) (z + v * d) = z + max u v * d := by
    intro d u v z hd
    rw [max_add_add_left, max_mul_of_nonneg _ _ hd]
  have mn : ∀ (d u v z : K), 0 ≤ d → min (z + u * d) (z + v * d) = z + min u v * d := by
    intro d u v z hd
    rw [min_add_add_left, min_mul_of_nonneg _ _ hd]
  have eS : (⟨max a.x (lineAt a b s).x, max a.y (lineAt a b s).y⟩ : Pt K) = lineAt a b (max 0 s) := by
    apply Pt.ext'
    · have := mx (b.x - a.x) 0 s a.x dx
      simpa [lineAt] using this
    · have := mx (b.y - a.y) 0 s a.y dy
      simpa [lineAt] using this
  have eE : (⟨min b.x (lineAt a b s').x, min b.y (lineAt a b s').y⟩ : Pt K) = lineAt a b (min 1 s') := by
    apply Pt.ext'
    · have := mn (b.x - a.x) 1 s' a.x dx
      simpa [lineAt] using this
    · have := mn (b.y - a.y) 1 s' a.y dy
      simpa [lineAt] using this
  have hline : ∀ v, lineAt (lineAt a b s) (lineAt a b s') v = lineAt a b (s + v * (s' - s)) := by
    intro v; apply Pt.ext' <;> simp only [lineAt] <;> ring
  have hline' : ∀ v, lineAt (lineAt a b (max 0 s)) (lineAt a b (min 1 s')) v =
      lineAt a b (max 0 s + v * (min 1 s' - max 0 s)) := by
    intro v; apply Pt.ext' <;> simp only [lineAt] <;> ring
  have share : ∀ c, ShareAt a b (lineAt a b s) (lineAt a b s') c ↔ ∃ u, max 0 s ≤ u ∧ u ≤ min 1 s' ∧ c = lineAt a b u := by
    intro c
    constructor
    · rintro ⟨u, v, u0, u1, v0, v1, h1, h2⟩
      rw [hline] at h2
      have huv := inj _ _ (h1.symm.trans h2)
      have hv := mul_nonneg v0 (sub_nonneg.2 hss)
      have hv' := mul_nonneg (sub_nonneg.2 v1) (sub_nonneg.2 hss)
      exact ⟨u, max_le u0 (by linarith), le_min u1 (by linarith), h1⟩
    · rintro ⟨u, hu1, hu2, h⟩
      have u0 := (le_max_left _ _).trans hu1
      have us := (le_max_right _ _).trans hu1
      have u1 := hu2.trans (min_le_left _ _)
      have us' := hu2.trans (min_le_right _ _)
      rcases hss.lt_or_eq with hlt | heq
      · have hd : 0 < s' - s := by linarith
        refine ⟨u, (u - s) / (s' - s), u0, u1, div_nonneg (by linarith) hd.le, (div_le_one hd).2 (by linarith), h, ?_⟩
        rw [hline, div_mul_cancel₀ _ hd.ne', h]
        congr 1
        ring
      · refine ⟨u, 0, u0, u1, le_refl _, zero_le_one, h, ?_⟩
        rw [hline, h]
        congr 1
        linarith
  obtain ⟨u, hu1, hu2, _⟩ := (share c).1 hc
  have hle : max 0 s ≤ min 1 s' := hu1.trans hu2
  refine ⟨?_, ?_, ?_⟩
  · have e1 := congrArg Pt.x eS
    have e2 := congrArg Pt.x eE
    simp only at e1 e2
    rw [e1, e2]
    simp only [lineAt, not_lt]
    linarith [mul_le_mul_of_nonneg_right hle dx]
  · have e1 := congrArg Pt.y eS
    have e2 := congrArg Pt.y eE
    simp only at e1 e2
    rw [e1, e2]
    simp only [lineAt, not_lt]
    linarith [mul_le_mul_of_nonneg_right hle dy]
  · intro c
    rw [share, eS, eE]
    constructor
    · rintro ⟨u, h1, h2, h3⟩
      rcases hle.lt_or_eq with hlt | heq
      · have hd : 0 < min 1 s' - max 0 s := by linarith
        refine ⟨(u - max 0 s) / (min 1 s' - max 0 s), div_nonneg (by linarith) hd.le, (div_le_one hd).2 (by linarith), ?_⟩
        rw [hline', div_mul_cancel₀ _ hd.ne', h3]
        congr 1
        ring
      · refine ⟨0, le_refl _, zero_le_one, ?_⟩
        rw [hline', h3]
        congr 1
        linarith
    · rintro ⟨v, v0, v1, h⟩
      rw [hline'] at h
      have hv := mul_nonneg v0 (sub_nonneg.2 hle)
      have hv' := mul_nonneg (sub_nonneg.2 v1) (sub_nonneg.2 hle)
      exact ⟨_, by linarith, by linarith, h⟩

theorem half_eq : (half : K) = 1 / 2 := by
  unfold half
  congr 1
  norm_num

/-- `midpoint_collinear_lines` on rising segments. -/
theorem midpoint_spec {a b p q : Pt K} (hrise : 0 ≤ (b.x - a.x) * (b.y - a.y)) (hab : a ≠ b)
    (hp : orient a b p = 0) (hq : orient a b q = 0) {c : Pt K} (hc : ShareAt a b p q c) :
    ∃ e f, midpointCollinearLines a b p q = some (mid e f) ∧ SharedPiece a b p q e f := by
  -- the other segment is rising as well
  have hrise' : 0 ≤ (q.x - p.x) * (q.y - p.y) := by
    have h1 : (b.x - a.x) * (q.y - p.y) = (b.y - a.y) * (q.x - p.x) := by
      unfold orient at hp hq; linear_combination hq - hp
    by_contra h
    have h := not_le.1 h
    have hN := dist2_pos hab
    have h2 : ((q.x - p.x) * (q.y - p.y)) * dist2 a b =
        (b.x - a.x) * (b.y - a.y) * ((q.x - p.x) ^ 2 + (q.y - p.y) ^ 2) := by
      unfold dist2
      linear_combination ((b.x - a.x) * (q.x - p.x) - (b.y - a.y) * (q.y - p.y)) * h1
    have h3 : ((q.x - p.x) * (q.y - p.y)) * dist2 a b < 0 := mul_neg_of_neg_of_pos h hN
    have h4 : 0 ≤ (b.x - a.x) * (b.y - a.y) * ((q.x - p.x) ^ 2 + (q.y - p.y) ^ 2) :=
      mul_nonneg hrise (by positivity)
    linarith
  have le_y : ∀ r s : Pt K, 0 ≤ (s.x - r.x) * (s.y - r.y) → (r.x < s.x ∨ (r.x = s.x ∧ r.y ≤ s.y)) → r.x ≤ s.x ∧ r.y ≤ s.y := by
    intro r s h1 h2
    rcases h2 with h2 | ⟨h2, h3⟩
    · have := nonneg_of_mul_nonneg_right h1 (by linarith)
      exact ⟨h2.le, by linarith⟩
    · exact ⟨h2.le, h3⟩
  have key : ∀ a b p q : Pt K, 0 ≤ (b.x - a.x) * (b.y - a.y) → 0 ≤ (q.x - p.x) * (q.y - p.y) →
      (a.x < b.x ∨ (a.x = b.x ∧ a.y ≤ b.y)) → (p.x < q.x ∨ (p.x = q.x ∧ p.y ≤ q.y)) → a ≠ b →
      orient a b p = 0 → orient a b q = 0 → ShareAt a b p q c →
      ∃ e f, (if fmax a.x p.x > fmin b.x q.x || fmax a.y p.y > fmin b.y q.y then none
        else some (⟨half * (fmax a.x p.x + fmin b.x q.x), half * (fmax a.y p.y + fmin b.y q.y)⟩ : Pt K)) = some (mid e f) ∧
        SharedPiece a b p q e f := by
    intro a b p q h1 h2 h3 h4 h5 h6 h7 h8
    obtain ⟨x1, y1⟩ := le_y a b h1 h3
    obtain ⟨x2, y2⟩ := le_y p q h2 h4
    obtain ⟨g1, g2, g3⟩ := midpoint_rising x1 y1 x2 y2 h5 h6 h7 h8
    refine ⟨_, _, ?_, g3⟩
    rw [fmax_eq, fmin_eq, fmax_eq, fmin_eq, if_neg (by
      simp only [gt_iff_lt, Bool.or_eq_true, decide_eq_true_eq]; exact not_or.2 ⟨g1, g2⟩), half_eq]
    congr 1
    apply Pt.ext' <;> simp only [mid] <;> ring
  have o1 : orient b a p = 0 := by unfold orient at hp ⊢; linear_combination -hp
  have o2 : orient b a q = 0 := by unfold orient at hq ⊢; linear_combination -hq
  unfold midpointCollinearLines
  rcases orderEnds_cases a b with ⟨e1, d1⟩ | ⟨e1, d1⟩ <;> rcases orderEnds_cases p q with ⟨e2, d2⟩ | ⟨e2, d2⟩ <;>
    rw [e1, e2]
  · exact key a b p q hrise hrise' d1 d2 hab hp hq hc
  · obtain ⟨e, f, k1, k2⟩ := key a b q p hrise (by nlinarith) d1 d2 hab hq hp hc.swap_right
    exact ⟨e, f, k1, fun c => ⟨fun h => (k2 c).1 h.swap_right, fun h => ((k2 c).2 h).swap_right⟩⟩
  · obtain ⟨e, f, k1, k2⟩ := key b a p q (by nlinarith) hrise' d1 d2 (Ne.symm hab) o1 o2 hc.swap_left
    exact ⟨e, f, k1, fun c => ⟨fun h => (k2 c).1 h.swap_left, fun h => ((k2 c).2 h).swap_left⟩⟩
  · obtain ⟨e, f, k1, k2⟩ := key b a q p (by nlinarith) (by nlinarith) d1 d2 (Ne.symm hab) o2 o1 hc.swap_left.swap_right
    exact ⟨e, f, k1, fun c => ⟨fun h => (k2 c).1 h.swap_left.swap_right, fun h => ((k2 c).2 h).swap_right.swap_left⟩⟩

end Celltree
