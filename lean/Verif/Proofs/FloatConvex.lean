import Verif.Proofs.FloatPoly

/-!
# Convex polygons in binary64: all points are accepted, and no others
-/

namespace Celltree.Fl

theorem end_case {ax dx dy px lam e : ℚ} (h0 : 0 ≤ lam) (hd : |dy| ≤ |dx|) (h1 : (px - ax) * dx < 0)
    (h2 : |ax + lam * dx - px| ≤ e) : |px - ax| ≤ e ∧ |lam * dy| ≤ e := by
  have hy : |lam * dy| ≤ |lam * dx| := by
    rw [abs_mul, abs_mul]; exact mul_le_mul_of_nonneg_left hd (abs_nonneg _)
  rw [abs_le] at h2
  rcases lt_trichotomy dx 0 with h | h | h
  · have hp : 0 < px - ax := by nlinarith
    have hl : lam * dx ≤ 0 := mul_nonpos_of_nonneg_of_nonpos h0 h.le
    rw [abs_of_nonpos hl] at hy
    rw [abs_of_pos hp]
    constructor <;> linarith
  · rw [h, mul_zero] at h1; exact absurd h1 (lt_irrefl _)
  · have hp : px - ax < 0 := by nlinarith
    have hl : 0 ≤ lam * dx := mul_nonneg h0 h.le
    rw [abs_of_nonneg hl] at hy
    rw [abs_of_neg hp]
    constructor <;> linarith

/-- Where the ray test is wrong: in the range of the side and close to it, or just beyond one of its ends. -/
theorem ray_wrong_cases {M D : ℚ} {p a b : Pt ℚ} (hg : GoodSide M D a b) (hM : 1 / 2 ^ 100 ≤ M)
    (hw : rayF p (a, b) ≠ decide (Crosses p (a, b))) :
    (InRange p a b ∧ |orient a b p| ≤ slack M D / 2 * |b.y - a.y|) ∨
    (|b.y - a.y| ≤ |b.x - a.x| ∧ (p.x - a.x) * (b.x - a.x) < 0 ∧ 0 ≤ (p.y - a.y) * (b.y - a.y) ∧
      |p.x - a.x| ≤ slack M D / 8 ∧ |p.y - a.y| ≤ slack M D / 8) ∨
    (|b.y - a.y| ≤ |b.x - a.x| ∧ (p.x - b.x) * (a.x - b.x) < 0 ∧ 0 ≤ (p.y - b.y) * (a.y - b.y) ∧
      |p.x - b.x| ≤ slack M D / 8 ∧ |p.y - b.y| ≤ slack M D / 8) := by
  obtain ⟨y1, y2, hne, hz⟩ := ray_wrong hg hM hw
  have hs := slack_small hM hg.D_nonneg
  have hs0 : 0 < slack M D := lt_of_lt_of_le (by positivity) hs
  have hd0 : b.y - a.y ≠ 0 := sub_ne_zero.2 hne
  have ho : |orient a b p| ≤ slack M D / 2 * |b.y - a.y| := by
    have : orient a b p = ((b.x - a.x) * (p.y - a.y) / (b.y - a.y) + a.x - p.x) * (b.y - a.y) := by
      unfold orient; field_simp; ring
    rw [this, abs_mul]
    exact mul_le_mul_of_nonneg_right (hz.trans (by linarith)) (abs_nonneg _)
  rcases lt_or_ge |b.x - a.x| |b.y - a.y| with hc | hc
  · exact Or.inl ⟨Or.inr ⟨hc, y1, y2⟩, ho⟩
  by_cases hr : min a.x b.x ≤ p.x ∧ p.x ≤ max a.x b.x
  · exact Or.inl ⟨Or.inl ⟨hc, hr⟩, ho⟩
  right
  obtain ⟨s, s0, s1, sy, sx⟩ := on_segment_y y1 y2 hd0
  have hz' : |a.x + s * (b.x - a.x) - p.x| ≤ slack M D / 8 := by
    have e1 : (lineAt a b s).y = a.y + s * (b.y - a.y) := rfl
    have e2 : p.y - a.y = s * (b.y - a.y) := by rw [← sy, e1]; ring
    have : (b.x - a.x) * (p.y - a.y) / (b.y - a.y) = s * (b.x - a.x) := by
      rw [e2]; field_simp
    rw [this] at hz
    rwa [add_comm]
  have ey : p.y - a.y = s * (b.y - a.y) := by
    have : (lineAt a b s).y = a.y + s * (b.y - a.y) := rfl
    rw [← sy, this]; ring
  have ey' : p.y - b.y = (1 - s) * (a.y - b.y) := by linarith
  have hends : (p.x - a.x) * (b.x - a.x) < 0 ∨ (p.x - b.x) * (a.x - b.x) < 0 := by
    have hdx : b.x - a.x ≠ 0 := by
      intro h0; rw [h0, abs_zero] at hc
      exact hd0 (abs_eq_zero.1 (le_antisymm hc (abs_nonneg _)))
    rw [not_and_or, not_le, not_le] at hr
    rcases lt_or_gt_of_ne hdx with h | h
    · rw [min_eq_right (by linarith), max_eq_left (by linarith)] at hr
      rcases hr with hr | hr
      · right; exact mul_neg_of_neg_of_pos (by linarith) (by linarith)
      · left; exact mul_neg_of_pos_of_neg (by linarith) (by linarith)
    · rw [min_eq_left (by linarith), max_eq_right (by linarith)] at hr
      rcases hr with hr | hr
      · left; exact mul_neg_of_neg_of_pos (by linarith) (by linarith)
      · right; exact mul_neg_of_pos_of_neg (by linarith) (by linarith)
  rcases hends with he | he
  · left
    obtain ⟨k1, k2⟩ := end_case s0 hc he hz'
    refine ⟨hc, he, ?_, k1, ?_⟩
    · rw [ey, mul_assoc]; exact mul_nonneg s0 (mul_self_nonneg _)
    · rw [ey]; exact k2
  · right
    obtain ⟨k1, k2⟩ := end_case (ax := b.x) (dx := a.x - b.x) (dy := a.y - b.y) (px := p.x) (lam := 1 - s)
      (e := slack M D / 8) (by linarith) (by rw [abs_sub_comm, abs_sub_comm a.x]; exact hc) he (by
        have : b.x + (1 - s) * (a.x - b.x) - p.x = a.x + s * (b.x - a.x) - p.x := by ring
        rw [this]; exact hz')
    refine ⟨hc, he, ?_, k1, ?_⟩
    · rw [ey', mul_assoc]; exact mul_nonneg (by linarith) (mul_self_nonneg _)
    · rw [ey']; exact k2

theorem InRange.swap {p a b : Pt ℚ} (h : InRange p a b) : InRange p b a := by
  unfold InRange at *
  rw [abs_sub_comm a.y, abs_sub_comm a.x, min_comm b.x, min_comm b.y, max_comm b.x, max_comm b.y]
  exact h

/-- Both orientations of the side pass the test. -/
theorem near_accept_both {M D tol : ℚ} {p a b : Pt ℚ} (hg : GoodSide M D a b) (hc : Clear a b) (hM : 1 / 2 ^ 100 ≤ M)
    (ht : slack M D ≤ tol) (hr : InRange p a b)
    (hx : |orient a b p| ≤ slack M D / 2 * |b.x - a.x| ∨ |orient a b p| ≤ slack M D / 2 * |b.y - a.y|) :
    NearF tol p (a, b) ∧ NearF tol p (b, a) := by
  refine ⟨near_accept hg hc hM ht hr hx, near_accept hg.swap hc.swap hM ht hr.swap ?_⟩
  rw [Celltree.orient_swap a b p, abs_neg, abs_sub_comm a.x, abs_sub_comm a.y]
  exact hx

variable {M D tol : ℚ} {l poly : List (Pt ℚ)} {p : Pt ℚ}

/-- Where the ray test is wrong for a side, the nearness test succeeds for some side. -/
theorem wrong_near (hl : ConvexPoly l) (hg : GoodPoly M D l) (hc : ∀ s ∈ sides l, s.1 ≠ s.2 → Clear s.1 s.2)
    (hM : 1 / 2 ^ 100 ≤ M) (ht : slack M D ≤ tol) (hp : InPoly l p) {a b : Pt ℚ} (hab : (a, b) ∈ sides l)
    (hw : rayF p (a, b) ≠ decide (Crosses p (a, b)) ∨ rayF p (b, a) ≠ decide (Crosses p (b, a))) :
    ∃ s ∈ sides l, s.1 ≠ s.2 ∧ NearF tol p s ∧ NearF tol p s.swap := by
  have hne : a ≠ b := by
    rintro rfl
    rcases hw with h | h <;> exact h (by rw [rayF_same]; symm; simpa using not_crosses_same p a)
  have hgs := hg.side _ hab hne
  have hcs := hc _ hab hne
  simp only at hgs hcs
  have hs := slack_small hM hgs.D_nonneg
  have hs0 : 0 < slack M D := lt_of_lt_of_le (by positivity) hs
  obtain ⟨ma, mb⟩ := mem_sides_mem hab
  simp only at ma mb
  have main : (InRange p a b ∧ |orient a b p| ≤ slack M D / 2 * |b.y - a.y|) ∨
    (|b.y - a.y| ≤ |b.x - a.x| ∧ (p.x - a.x) * (b.x - a.x) < 0 ∧ 0 ≤ (p.y - a.y) * (b.y - a.y) ∧
      |p.x - a.x| ≤ slack M D / 8 ∧ |p.y - a.y| ≤ slack M D / 8) ∨
    (|b.y - a.y| ≤ |b.x - a.x| ∧ (p.x - b.x) * (a.x - b.x) < 0 ∧ 0 ≤ (p.y - b.y) * (a.y - b.y) ∧
      |p.x - b.x| ≤ slack M D / 8 ∧ |p.y - b.y| ≤ slack M D / 8) := by
    rcases hw with h | h
    · exact ray_wrong_cases hgs hM h
    · rcases ray_wrong_cases hgs.swap hM h with ⟨h1, h2⟩ | ⟨h1, h2⟩ | ⟨h1, h2⟩
      · left
        refine ⟨h1.swap, ?_⟩
        rw [Celltree.orient_swap a b p, abs_neg, abs_sub_comm] at h2
        exact h2
      · right; right
        rw [abs_sub_comm, abs_sub_comm a.x] at h1
        exact ⟨h1, h2⟩
      · right; left
        rw [abs_sub_comm, abs_sub_comm a.x] at h1
        exact ⟨h1, h2⟩
  have half : ∀ v x : Pt ℚ, |p.x - v.x| ≤ slack M D / 8 → |p.y - v.y| ≤ slack M D / 8 →
      |orient v x p| ≤ slack M D / 2 * |x.x - v.x| ∨ |orient v x p| ≤ slack M D / 2 * |x.y - v.y| := by
    intro v x e1 e2
    refine (orient_small e1 e2 (x := x)).imp ?_ ?_ <;> intro h <;> refine h.trans ?_ <;>
      exact mul_le_mul_of_nonneg_right (by linarith) (abs_nonneg _)
  rcases main with ⟨h1, h2⟩ | ⟨h1, h2, h3, h4, h5⟩ | ⟨h1, h2, h3, h4, h5⟩
  · exact ⟨_, hab, hne, near_accept_both hgs hcs hM ht h1 (Or.inr h2)⟩
  · -- beyond `a`: the side before
    obtain ⟨w, hw', hwne⟩ := hl.side_to ma
    have hgw := hg.side _ hw' hwne
    have hcw := hc _ hw' hwne
    simp only at hgw hcw
    have hang := hl.angle hw' hab hwne hp
    have hang' : (∃ α β : ℚ, 0 ≤ α ∧ 0 ≤ β ∧ p.x - a.x = α * (b.x - a.x) + β * (w.x - a.x) ∧
      p.y - a.y = α * (b.y - a.y) + β * (w.y - a.y)) ∨
      (∃ k : ℚ, 0 ≤ k ∧ w.x - a.x = -k * (b.x - a.x) ∧ w.y - a.y = -k * (b.y - a.y)) := by
      rcases hang with ⟨α, β, ha, hb, e1, e2⟩ | ⟨k, hk, e1, e2⟩
      · exact Or.inl ⟨β, α, hb, ha, by linarith, by linarith⟩
      · right
        have hk0 : k ≠ 0 := by
          rintro rfl
          apply hne
          refine Pt.ext' ?_ ?_ <;> simp only [neg_zero, zero_mul] at e1 e2 <;> linarith
        refine ⟨1 / k, by positivity, ?_, ?_⟩
        · rw [e1]; field_simp
        · rw [e2]; field_simp
    have hr := corner_range (x := w) hang' h1 h2 h3 h4 h5 (by linarith) (by
      have := hgw.long
      rw [abs_sub_comm, abs_sub_comm a.y] at this
      exact this.imp (fun h => le_trans (by linarith) h) (fun h => le_trans (by linarith) h))
    refine ⟨_, hw', hwne, (near_accept_both hgw.swap hcw.swap hM ht hr (half a w h4 h5)).symm⟩
  · -- beyond `b`: the side after
    obtain ⟨x, hx', hxne⟩ := hl.side_from mb
    have hgx := hg.side _ hx' (Ne.symm hxne)
    have hcx := hc _ hx' (Ne.symm hxne)
    simp only at hgx hcx
    have hang := hl.angle hab hx' hne hp
    have hr := corner_range (x := x) hang (by rw [abs_sub_comm, abs_sub_comm a.x]; exact h1) h2 h3 h4 h5 (by linarith)
      (hgx.long.imp (fun h => le_trans (by linarith) h) (fun h => le_trans (by linarith) h))
    exact ⟨_, hx', Ne.symm hxne, near_accept_both hgx hcx hM ht hr (half b x h4 h5)⟩

theorem mem_sides_poly (hpoly : poly = l ∨ poly = l.reverse) {s : Pt ℚ × Pt ℚ} (hs : s ∈ sides l) :
    s ∈ sides poly ∨ s.swap ∈ sides poly := by
  rcases hpoly with rfl | rfl
  · exact Or.inl hs
  · exact Or.inr ((sides_reverse l).mem_iff.2 (List.mem_map_of_mem hs))

theorem mem_sides_poly' (hpoly : poly = l ∨ poly = l.reverse) {s : Pt ℚ × Pt ℚ} (hs : s ∈ sides poly) :
    s ∈ sides l ∨ s.swap ∈ sides l := by
  rcases hpoly with rfl | rfl
  · exact Or.inl hs
  · obtain ⟨s', h1, rfl⟩ := List.mem_map.1 ((sides_reverse l).mem_iff.1 hs)
    exact Or.inr (by simpa using h1)

theorem countP_poly (hpoly : poly = l ∨ poly = l.reverse) :
    (sides poly).countP (fun s => decide (Crosses p s)) = (sides l).countP (fun s => decide (Crosses p s)) := by
  rcases hpoly with rfl | rfl
  · rfl
  · rw [(sides_reverse l).countP_eq, List.countP_map]
    apply List.countP_congr
    intro s _
    simp only [Function.comp, decide_eq_true_eq]
    exact crosses_swap p s

/-- Every point of a convex polygon is accepted, if the tolerance is not too small. -/
theorem convex_accept (hl : ConvexPoly l) (hg : GoodPoly M D l) (hc : ∀ s ∈ sides l, s.1 ≠ s.2 → Clear s.1 s.2)
    (hM : 1 / 2 ^ 100 ≤ M) (ht : slack M D ≤ tol) (hpoly : poly = l ∨ poly = l.reverse) (hp : InPoly l p) :
    AcceptsF tol poly p := by
  have huse : (∃ s ∈ sides l, s.1 ≠ s.2 ∧ NearF tol p s ∧ NearF tol p s.swap) → AcceptsF tol poly p := by
    rintro ⟨s, h1, h2, h3, h4⟩
    rcases mem_sides_poly hpoly h1 with h | h
    · exact Or.inl ⟨s, h, h2, h3⟩
    · exact Or.inl ⟨s.swap, h, Ne.symm h2, h4⟩
  by_cases hi : InInterior l p
  · by_cases hex : ∃ s ∈ sides l, rayF p s ≠ decide (Crosses p s) ∨ rayF p s.swap ≠ decide (Crosses p s.swap)
    · obtain ⟨⟨a, b⟩, h1, h2⟩ := hex
      exact huse (wrong_near hl hg hc hM ht hp h1 h2)
    · push Not at hex
      right
      have : (sides poly).countP (rayF p) = (sides poly).countP (fun s => decide (Crosses p s)) := by
        apply List.countP_congr
        intro s hs
        have : rayF p s = decide (Crosses p s) := by
          rcases mem_sides_poly' hpoly hs with h | h
          · exact (hex s h).1
          · have := (hex _ h).2
            rwa [Prod.swap_swap] at this
        rw [this]
      rw [this, countP_poly hpoly]
      exact hl.interior_odd hi
  · obtain ⟨⟨a, b⟩, hs, hne, w, h0, h1, rfl⟩ := hl.on_side hp hi
    have hgs := hg.side _ hs hne
    have hsl := slack_small hM hgs.D_nonneg
    have hs0 : 0 < slack M D := lt_of_lt_of_le (by positivity) hsl
    have hcs := hc _ hs hne
    simp only at hgs hcs ⊢ hp
    have hr : InRange (lineAt a b w) a b := by
      have key : ∀ x y : ℚ, min x y ≤ x + w * (y - x) ∧ x + w * (y - x) ≤ max x y := by
        intro x y
        rcases le_total x y with h | h
        · have g1 := mul_nonneg h0 (sub_nonneg.2 h)
          have g2 := mul_nonneg (sub_nonneg.2 h1) (sub_nonneg.2 h)
          rw [min_eq_left h, max_eq_right h]; constructor <;> linarith only [g1, g2]
        · have g1 := mul_nonneg h0 (sub_nonneg.2 h)
          have g2 := mul_nonneg (sub_nonneg.2 h1) (sub_nonneg.2 h)
          rw [min_eq_right h, max_eq_left h]; constructor <;> linarith only [g1, g2]
      unfold InRange
      rcases le_or_gt |b.y - a.y| |b.x - a.x| with h | h
      · exact Or.inl ⟨h, key _ _⟩
      · exact Or.inr ⟨h, key _ _⟩
    have ho : |orient a b (lineAt a b w)| ≤ slack M D / 2 * |b.x - a.x| := by
      have : orient a b (lineAt a b w) = 0 := by unfold orient lineAt; ring
      rw [this, abs_zero]
      exact mul_nonneg (by linarith) (abs_nonneg _)
    have := near_accept_both hgs hcs hM ht hr (Or.inl ho)
    exact huse ⟨(a, b), hs, hne, this⟩

/-- A point that is accepted is close to the polygon. -/
theorem convex_sound (hl : ConvexPoly l) (hg : GoodPoly M D l) (hM : 1 / 2 ^ 100 ≤ M) (ht : slack M D ≤ tol)
    (hpoly : poly = l ∨ poly = l.reverse) (ha : AcceptsF tol poly p) :
    ∃ q, InPoly l q ∧ |p.x - q.x| ≤ 2 * tol ∧ |p.y - q.y| ≤ 2 * tol := by
  have hgp : GoodPoly M D poly := by
    rcases hpoly with rfl | rfl
    · exact hg
    · exact hg.reverse
  have hmem : ∀ v ∈ poly, v ∈ l := by
    rcases hpoly with rfl | rfl
    · exact fun v h => h
    · exact fun v h => List.mem_reverse.1 h
  rcases ha with ⟨⟨a, b⟩, h1, h2, h3⟩ | ho
  · obtain ⟨s, s0, s1, h4, h5⟩ := near_sound (hgp.side _ h1 h2) hM ht h3
    obtain ⟨m1, m2⟩ := mem_sides_mem h1
    exact ⟨_, (hl.corner_inPoly (hmem _ m1)).convex (hl.corner_inPoly (hmem _ m2)) s0 s1, h4, h5⟩
  · by_cases hex : ∃ s ∈ sides poly, rayF p s ≠ decide (Crosses p s)
    · obtain ⟨⟨a, b⟩, h1, h2⟩ := hex
      have hne : a ≠ b := by
        rintro rfl
        exact h2 (by rw [rayF_same]; symm; simpa using not_crosses_same p a)
      have hgs := hgp.side _ h1 hne
      simp only at hgs
      have hsl := slack_small hM hgs.D_nonneg
      have hs0 : 0 < slack M D := lt_of_lt_of_le (by positivity) hsl
      obtain ⟨y1, y2, hy, hz⟩ := ray_wrong hgs hM h2
      obtain ⟨s, s0, s1, sy, sx⟩ := on_segment_y y1 y2 (sub_ne_zero.2 hy)
      obtain ⟨m1, m2⟩ := mem_sides_mem h1
      refine ⟨_, (hl.corner_inPoly (hmem _ m1)).convex (hl.corner_inPoly (hmem _ m2)) s0 s1, ?_, ?_⟩
      · have hd0 : b.y - a.y ≠ 0 := sub_ne_zero.2 hy
        have : (lineAt a b s).x = (b.x - a.x) * (p.y - a.y) / (b.y - a.y) + a.x := by
          have : (lineAt a b s).x = ((b.y - a.y) * a.x + (p.y - a.y) * (b.x - a.x)) / (b.y - a.y) := by
            rw [eq_div_iff hd0, ← sx]; ring
          rw [this]; field_simp; ring
        simp only
        rw [this, abs_sub_comm]
        linarith
      · simp only
        rw [sy, sub_self, abs_zero]; linarith
    · push Not at hex
      have : (sides poly).countP (rayF p) = (sides poly).countP (fun s => decide (Crosses p s)) := by
        apply List.countP_congr
        intro s hs
        rw [hex s hs]
      rw [this, countP_poly hpoly] at ho
      have hin := hl.odd_inPoly ho
      have ht0 : 0 ≤ tol := by
        obtain ⟨v, hv, hne⟩ := hl.side_from (List.getLast_mem hl.ne_nil)
        have hsl := slack_small hM (hg.side _ hv (Ne.symm hne)).D_nonneg
        exact le_trans (le_trans (by positivity) hsl) ht
      refine ⟨p, hin, ?_, ?_⟩ <;> rw [sub_self, abs_zero] <;> linarith

end Celltree.Fl
