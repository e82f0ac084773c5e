import Verif.Proofs.FloatNear

/-!
# Convex polygons in binary64

The test of the code accepts every point of the polygon, and no point that is far from it.
-/

namespace Celltree.Fl

/-! ## The loop -/

theorem fp_eqv (a b : Pt ℚ) : (fp a).eqv (fp b) = true ↔ a = b := by
  unfold Pt.eqv fp
  simp only [Bool.and_eq_true, beq_fin, decide_eq_true_eq]
  constructor
  · rintro ⟨h1, h2⟩; exact Pt.ext' h1 h2
  · rintro rfl; exact ⟨rfl, rfl⟩

theorem rayF_same (p a : Pt ℚ) : rayF p (a, a) = false := by simp [rayF]

/-- The result of the test in terms of what is computed for every side. -/
def AcceptsF (tol : ℚ) (poly : List (Pt ℚ)) (p : Pt ℚ) : Prop :=
  (∃ s ∈ sides poly, s.1 ≠ s.2 ∧ NearF tol p s) ∨ Odd ((sides poly).countP (rayF p))

theorem loop_fl {tol : ℚ} {p : Pt ℚ} (hp : Bnd (2 ^ 200) p) (ht : |tol| ≤ 2 ^ 200) (v0 : Pt ℚ) (l : List (Pt ℚ))
    (hv : Bnd (2 ^ 200) v0) (hl : ∀ v ∈ l, Bnd (2 ^ 200) v)
    (hy : ∀ s ∈ pairs (v0 :: l), s.2.y = s.1.y ∨ 1 / 2 ^ 200 ≤ |s.2.y - s.1.y|) (c : Bool) :
    ∃ b, pointInPolygonOrOnEdgeLoop (fp p) (fin tol) (fp v0) (toVector (fp p) (fp v0)) (l.map fp) c = .ok b ∧
      (b = true ↔ (∃ s ∈ pairs (v0 :: l), s.1 ≠ s.2 ∧ NearF tol p s) ∨
        Odd ((if c then 1 else 0) + (pairs (v0 :: l)).countP (rayF p))) := by
  induction l generalizing v0 c with
  | nil =>
    refine ⟨c, rfl, ?_⟩
    cases c <;> simp
  | cons v1 l ih =>
    have hv1 := hl v1 (by simp)
    have hl' : ∀ v ∈ l, Bnd (2 ^ 200) v := fun v h => hl v (List.mem_cons_of_mem _ h)
    have hy1 := hy (v0, v1) (by simp [pairs_cons_cons])
    have hy' : ∀ s ∈ pairs (v1 :: l), s.2.y = s.1.y ∨ 1 / 2 ^ 200 ≤ |s.2.y - s.1.y| := fun s hs =>
      hy s (by rw [pairs_cons_cons]; exact List.mem_cons_of_mem _ hs)
    rw [List.map_cons]
    unfold pointInPolygonOrOnEdgeLoop
    by_cases he : v1 = v0
    · rw [if_pos ((fp_eqv v1 v0).2 he)]
      subst he
      obtain ⟨b, h1, h2⟩ := ih v1 hv1 hl' hy' c
      refine ⟨b, h1, h2.trans ?_⟩
      simp only [pairs_cons_cons, List.countP_cons, rayF_same, Bool.false_eq_true, if_false,
        Nat.add_zero, List.mem_cons, exists_eq_or_imp, ne_eq, not_true_eq_false, false_and, false_or]
    · rw [if_neg (fun h => he ((fp_eqv v1 v0).1 h))]
      simp only
      rw [near_fl hp hv hv1 ht]
      by_cases hn : NearF tol p (v0, v1)
      · rw [if_pos (decide_eq_true hn)]
        refine ⟨true, rfl, ?_⟩
        simp only [true_iff]
        exact Or.inl ⟨(v0, v1), by simp [pairs_cons_cons], Ne.symm he, hn⟩
      · rw [if_neg (by simpa using hn), rayCrosses_fl hp hv hv1 hy1, ok_bind]
        obtain ⟨b, h1, h2⟩ := ih v1 hv1 hl' hy' (if rayF p (v0, v1) = true then !c else c)
        refine ⟨b, h1, h2.trans ?_⟩
        simp only [pairs_cons_cons, List.countP_cons, List.mem_cons, exists_eq_or_imp, hn, and_false, false_or]
        apply or_congr Iff.rfl
        by_cases hc : rayF p (v0, v1) = true
        · simp only [hc, if_true]
          cases c <;> simp only [Bool.not_false, Bool.not_true, if_true, Bool.false_eq_true, if_false] <;>
            simp only [Nat.odd_iff] <;> omega
        · simp [hc]

theorem test_fl {M D tol : ℚ} {poly : List (Pt ℚ)} {p : Pt ℚ} (hg : GoodPoly M D poly) (hne : poly ≠ [])
    (hp : Bnd (2 ^ 200) p) (hM : M ≤ 2 ^ 200) (ht : |tol| ≤ 2 ^ 200) :
    ∃ b, pointInPolygonOrOnEdge (fp p) (poly.map fp) (fin tol) = .ok b ∧ (b = true ↔ AcceptsF tol poly p) := by
  cases poly with
  | nil => exact (hne rfl).elim
  | cons a l =>
    unfold pointInPolygonOrOnEdge
    have hne' : (a :: l).map fp ≠ [] := by simp
    rw [rdI_last hne', ok_bind]
    have hlast : ((a :: l).map fp).getLast hne' = fp ((a :: l).getLast hne) := List.getLast_map hne'
    rw [hlast]
    have hmem := List.getLast_mem hne
    obtain ⟨b, h1, h2⟩ := loop_fl (tol := tol) hp ht ((a :: l).getLast hne) (a :: l)
      ((hg.bnd _ hmem).mono hM) (fun v hv => (hg.bnd _ hv).mono hM) (by
        intro s hs
        have hs' : s ∈ sides (a :: l) := (sides_perm a l).mem_iff.2 hs
        by_cases he : s.1 = s.2
        · left; rw [he]
        · exact (hg.side s hs' he).height) false
    refine ⟨b, h1, h2.trans ?_⟩
    unfold AcceptsF
    rw [(sides_perm a l).countP_eq]
    simp only [(sides_perm a l).mem_iff, Bool.false_eq_true, if_false, Nat.zero_add]

theorem GoodPoly.reverse {M D : ℚ} {l : List (Pt ℚ)} (h : GoodPoly M D l) : GoodPoly M D l.reverse where
  bnd v hv := h.bnd v (List.mem_reverse.1 hv)
  side s hs hne := by
    obtain ⟨s', h1, rfl⟩ := List.mem_map.1 ((sides_reverse l).mem_iff.1 hs)
    exact (h.side s' h1 (Ne.symm hne)).swap

/-! ## Corners -/

/-- A point in the angle between two sides, beyond the end of the first one, is in the range of the second one. -/
theorem wedge_core {wx wy xx xy px py α β : ℚ} (ha : 0 ≤ α) (hb : 0 ≤ β) (e1 : px = α * wx + β * xx)
    (e2 : py = α * wy + β * xy) (hd : |wy| ≤ |wx|) (h1 : px * wx < 0) (h2 : 0 ≤ py * wy) :
    0 ≤ px * xx ∧ (|xx| < |xy| → 0 ≤ py * xy) := by
  have hbxw : β * (xx * wx) < 0 := by
    have : px * wx = α * (wx * wx) + β * (xx * wx) := by rw [e1]; ring
    nlinarith [mul_nonneg ha (mul_self_nonneg wx)]
  have hxw : xx * wx < 0 := by
    by_contra hcon
    push Not at hcon
    nlinarith
  have hwx : wx ≠ 0 := by rintro rfl; simp at h1
  refine ⟨?_, ?_⟩
  · have : 0 < (px * xx) * (wx * wx) := by
      have : (px * xx) * (wx * wx) = (px * wx) * (xx * wx) := by ring
      rw [this]; exact mul_pos_of_neg_of_neg h1 hxw
    by_contra hcon
    push Not at hcon
    have := mul_nonpos_of_nonpos_of_nonneg hcon.le (mul_self_nonneg wx)
    linarith
  · intro hlt
    by_contra hcon
    push Not at hcon
    have hpy : py ≠ 0 := by rintro rfl; simp at hcon
    rcases lt_or_gt_of_ne hwx with w | w <;> rcases lt_or_gt_of_ne hpy with q | q
    all_goals
      first
        | have p1 : 0 < px := by nlinarith
          have x1 : 0 < xx := by nlinarith
          have a1 : |wx| = -wx := abs_of_neg w
          have a2 : |xx| = xx := abs_of_pos x1
          first
            | have y1 : wy ≤ 0 := by nlinarith
              have z1 : 0 < xy := by nlinarith
              rw [a1, abs_of_nonpos y1] at hd
              rw [a2, abs_of_pos z1] at hlt
              have := mul_le_mul_of_nonneg_left hd ha
              have := mul_le_mul_of_nonneg_left hlt.le hb
              linarith
            | have y1 : 0 ≤ wy := by nlinarith
              have z1 : xy < 0 := by nlinarith
              rw [a1, abs_of_nonneg y1] at hd
              rw [a2, abs_of_neg z1] at hlt
              have := mul_le_mul_of_nonneg_left hd ha
              have := mul_le_mul_of_nonneg_left hlt.le hb
              linarith
        | have p1 : px < 0 := by nlinarith
          have x1 : xx < 0 := by nlinarith
          have a1 : |wx| = wx := abs_of_pos w
          have a2 : |xx| = -xx := abs_of_neg x1
          first
            | have y1 : wy ≤ 0 := by nlinarith
              have z1 : 0 < xy := by nlinarith
              rw [a1, abs_of_nonpos y1] at hd
              rw [a2, abs_of_pos z1] at hlt
              have := mul_le_mul_of_nonneg_left hd ha
              have := mul_le_mul_of_nonneg_left hlt.le hb
              linarith
            | have y1 : 0 ≤ wy := by nlinarith
              have z1 : xy < 0 := by nlinarith
              rw [a1, abs_of_nonneg y1] at hd
              rw [a2, abs_of_neg z1] at hlt
              have := mul_le_mul_of_nonneg_left hd ha
              have := mul_le_mul_of_nonneg_left hlt.le hb
              linarith

/-- The point is in the angle at a corner; at a straight corner the sides go in opposite directions. -/
theorem _root_.Celltree.ConvexPoly.angle {l : List (Pt ℚ)} (h : ConvexPoly l) {w v x p : Pt ℚ} (h1 : (w, v) ∈ sides l)
    (h2 : (v, x) ∈ sides l) (hw : w ≠ v) (hp : InPoly l p) :
    (∃ α β : ℚ, 0 ≤ α ∧ 0 ≤ β ∧ p.x - v.x = α * (w.x - v.x) + β * (x.x - v.x) ∧
      p.y - v.y = α * (w.y - v.y) + β * (x.y - v.y)) ∨
    (∃ k : ℚ, 0 ≤ k ∧ x.x - v.x = -k * (w.x - v.x) ∧ x.y - v.y = -k * (w.y - v.y)) := by
  have m := mem_sides_mem h1
  have m' := mem_sides_mem h2
  have ho := h.support h1 m'.2
  simp only at ho m m'
  have o1 := hp _ h1
  have o2 := hp _ h2
  simp only at o1 o2
  rcases ho.lt_or_eq with ho | ho
  · left
    refine ⟨orient v x p / orient w v x, orient w v p / orient w v x, div_nonneg o2 ho.le, div_nonneg o1 ho.le, ?_, ?_⟩
    · rw [div_mul_eq_mul_div, div_mul_eq_mul_div, ← add_div, eq_div_iff ho.ne']
      unfold orient; ring
    · rw [div_mul_eq_mul_div, div_mul_eq_mul_div, ← add_div, eq_div_iff ho.ne']
      unfold orient; ring
  · right
    -- `x` is on the line through `w` and `v`
    have hcol : (x.x - v.x) * (w.y - v.y) = (x.y - v.y) * (w.x - v.x) := by
      have : orient w v x = (x.x - v.x) * (w.y - v.y) - (x.y - v.y) * (w.x - v.x) := by unfold orient; ring
      rw [← ho] at this; linarith
    obtain ⟨k, k1, k2⟩ : ∃ k : ℚ, x.x - v.x = -k * (w.x - v.x) ∧ x.y - v.y = -k * (w.y - v.y) := by
      by_cases hx : w.x - v.x = 0
      · have hy : w.y - v.y ≠ 0 := fun hy => hw (Pt.ext' (by linarith) (by linarith))
        refine ⟨-((x.y - v.y) / (w.y - v.y)), ?_, ?_⟩
        · rw [hx, mul_zero] at hcol
          rw [hx, mul_zero]
          exact (mul_eq_zero.1 hcol).resolve_right hy
        · field_simp
      · refine ⟨-((x.x - v.x) / (w.x - v.x)), ?_, ?_⟩
        · field_simp
        · rw [neg_neg, div_mul_eq_mul_div, eq_div_iff hx]; linarith
    refine ⟨k, ?_, k1, k2⟩
    by_contra hk
    push Not at hk
    refine h.not_collinear hw fun c hc => ?_
    have c1 := h.support h1 hc
    have c2 := h.support h2 hc
    simp only at c1 c2
    have e : orient v x c = k * orient w v c := by
      have : orient v x c = (x.x - v.x) * (c.y - v.y) - (x.y - v.y) * (c.x - v.x) := rfl
      rw [this, k1, k2]
      unfold orient; ring
    rw [e] at c2
    exact le_antisymm (by nlinarith) c1

theorem range_of_sign {v x p e : ℚ} (h : 0 ≤ (p - v) * (x - v)) (h1 : |p - v| ≤ e) (h2 : e ≤ |x - v|) (h3 : 0 < |x - v|) :
    min v x ≤ p ∧ p ≤ max v x := by
  have hne := abs_pos.1 h3
  rcases lt_or_gt_of_ne hne with hx | hx
  · have : p - v ≤ 0 := by
      by_contra hc; push Not at hc; nlinarith
    rw [abs_of_nonpos this] at h1
    rw [abs_of_neg hx] at h2
    rw [min_eq_right (by linarith), max_eq_left (by linarith)]
    constructor <;> linarith
  · have : 0 ≤ p - v := by
      by_contra hc; push Not at hc; nlinarith
    rw [abs_of_nonneg this] at h1
    rw [abs_of_pos hx] at h2
    rw [min_eq_left (by linarith), max_eq_right (by linarith)]
    constructor <;> linarith

/-- Near a corner, beyond the end of one side: in the range of the other side. -/
theorem corner_range {w v x p : Pt ℚ} {e : ℚ} (hang : (∃ α β : ℚ, 0 ≤ α ∧ 0 ≤ β ∧ p.x - v.x = α * (w.x - v.x) + β * (x.x - v.x) ∧
      p.y - v.y = α * (w.y - v.y) + β * (x.y - v.y)) ∨
    (∃ k : ℚ, 0 ≤ k ∧ x.x - v.x = -k * (w.x - v.x) ∧ x.y - v.y = -k * (w.y - v.y)))
    (hd : |w.y - v.y| ≤ |w.x - v.x|) (h1 : (p.x - v.x) * (w.x - v.x) < 0) (h2 : 0 ≤ (p.y - v.y) * (w.y - v.y))
    (ex : |p.x - v.x| ≤ e) (ey : |p.y - v.y| ≤ e) (he : 0 < e) (hl : e ≤ |x.x - v.x| ∨ e ≤ |x.y - v.y|) : InRange p v x := by
  have hs : 0 ≤ (p.x - v.x) * (x.x - v.x) ∧ (|x.x - v.x| < |x.y - v.y| → 0 ≤ (p.y - v.y) * (x.y - v.y)) := by
    rcases hang with ⟨α, β, ha, hb, e1, e2⟩ | ⟨k, hk, e1, e2⟩
    · exact wedge_core ha hb e1 e2 hd h1 h2
    · rw [e1, e2]
      refine ⟨by nlinarith, fun hlt => ?_⟩
      rw [abs_mul, abs_mul, abs_neg] at hlt
      have := mul_le_mul_of_nonneg_left hd (abs_nonneg k)
      linarith
  unfold InRange
  rcases le_or_gt |x.y - v.y| |x.x - v.x| with hc | hc
  · left
    have hl' : e ≤ |x.x - v.x| := hl.elim id fun h => h.trans hc
    exact ⟨hc, range_of_sign hs.1 ex hl' (lt_of_lt_of_le he hl')⟩
  · right
    have hl' : e ≤ |x.y - v.y| := hl.elim (fun h => h.trans hc.le) id
    exact ⟨hc, range_of_sign (hs.2 hc) ey hl' (lt_of_lt_of_le he hl')⟩

theorem orient_small {v x p : Pt ℚ} {e : ℚ} (ex : |p.x - v.x| ≤ e) (ey : |p.y - v.y| ≤ e) :
    |orient v x p| ≤ 2 * e * |x.x - v.x| ∨ |orient v x p| ≤ 2 * e * |x.y - v.y| := by
  have h : |orient v x p| ≤ |x.x - v.x| * e + |x.y - v.y| * e := by
    unfold orient
    refine (abs_sub _ _).trans ?_
    rw [abs_mul, abs_mul]
    exact add_le_add (mul_le_mul_of_nonneg_left ey (abs_nonneg _)) (mul_le_mul_of_nonneg_left ex (abs_nonneg _))
  have he : 0 ≤ e := (abs_nonneg _).trans ex
  rcases le_total |x.y - v.y| |x.x - v.x| with hc | hc
  · left
    have := mul_le_mul_of_nonneg_right hc he
    linarith
  · right
    have := mul_le_mul_of_nonneg_right hc he
    linarith

end Celltree.Fl
