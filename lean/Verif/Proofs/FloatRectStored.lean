import Verif.Proofs.FloatRectArea
import Verif.Proofs.FaceEdges
import Verif.Proofs.FloatWeights

/-!
# The stored order of the corners of rectangles in binary64
-/

set_option linter.unusedSectionVars false

namespace Celltree

section
variable {F : Type} [Add F] [Sub F] [Mul F] [Div F] [Zero F] [One F] [Neg F] [IntCast F]
  [LT F] [LE F] [BEq F] [DecidableLT F] [DecidableLE F]

theorem row4 {vertices : List (Pt F)} {ncol : Nat} {A : List Int} {p0 p1 p2 p3 : Pt F} (hA : Row vertices.length ncol A)
    (h : ptsOf vertices A = [p0, p1, p2, p3]) :
    ∃ v0 v1 v2 v3, A = [v0, v1, v2, v3] ∧ rdI vertices v0 = .ok p0 ∧ rdI vertices v1 = .ok p1 ∧ rdI vertices v2 = .ok p2 ∧
      rdI vertices v3 = .ok p3 := by
  obtain ⟨hlen, hget⟩ := ptsOf_spec hA.range
  rw [h] at hlen hget
  match A, hlen, hget with
  | [v0, v1, v2, v3], _, hget =>
    have g := fun i hi => hget i hi
    obtain ⟨q0, a0, b0⟩ := hget 0 (by simp)
    obtain ⟨q1, a1, b1⟩ := hget 1 (by simp)
    obtain ⟨q2, a2, b2⟩ := hget 2 (by simp)
    obtain ⟨q3, a3, b3⟩ := hget 3 (by simp)
    simp only [List.getElem?_cons_zero, List.getElem?_cons_succ, Option.some.injEq] at b0 b1 b2 b3
    subst b0 b1 b2 b3
    exact ⟨v0, v1, v2, v3, rfl, a0, a1, a2, a3⟩

theorem ccw4_start {vertices : List (Pt F)} {ncol : Nat} {v0 v1 v2 v3 : Int} {p2 p3 : Pt F}
    (hA : Row vertices.length ncol [v0, v1, v2, v3]) (h2 : rdI vertices v2 = .ok p2) (h3 : rdI vertices v3 = .ok p3) :
    ccwFace vertices (padRow ncol [v0, v1, v2, v3]) = ccwLoop vertices 4 4 0 p2 p3 (padRow ncol [v0, v1, v2, v3]) := by
  unfold ccwFace
  rw [hA.polygonLength]
  simp only [List.length_cons, List.length_nil]
  rw [show (((0 + 1 + 1 + 1 + 1 : Nat) : Int) - 2) = ((2 : Nat) : Int) by norm_num,
    show (((0 + 1 + 1 + 1 + 1 : Nat) : Int) - 1) = ((3 : Nat) : Int) by norm_num, rdI_nat, rdI_nat]
  unfold padRow
  rw [rd_of_some (a := v2) (by simp), ok_bind, h2, ok_bind, rd_of_some (a := v3) (by simp), ok_bind, h3, ok_bind]

theorem ccw4_keep {vertices : List (Pt F)} {ncol : Nat} {A : List Int} {p0 p1 p2 p3 : Pt F} (hA : Row vertices.length ncol A)
    (h : ptsOf vertices A = [p0, p1, p2, p3]) (h1 : (cross (toVector p2 p3) (toVector p2 p0) == 0) = false)
    (h2 : ¬ cross (toVector p2 p3) (toVector p2 p0) < 0) : ccwFace vertices (padRow ncol A) = .ok (padRow ncol A) := by
  obtain ⟨v0, v1, v2, v3, rfl, a0, a1, a2, a3⟩ := row4 hA h
  rw [ccw4_start hA a2 a3]
  unfold ccwLoop
  rw [padRow, rd_of_some (a := v0) (by simp), ok_bind, a0, ok_bind]
  simp only
  rw [if_neg (by rw [h1]; simp), if_neg h2]

theorem ccw4_flip {vertices : List (Pt F)} {ncol : Nat} {A : List Int} {p0 p1 p2 p3 : Pt F} (hA : Row vertices.length ncol A)
    (h : ptsOf vertices A = [p0, p1, p2, p3]) (h1 : (cross (toVector p2 p3) (toVector p2 p0) == 0) = false)
    (h2 : cross (toVector p2 p3) (toVector p2 p0) < 0) (h3 : (cross (toVector p2 p3) (toVector p2 p2) == 0) = true)
    (h4 : (cross (toVector p3 p2) (toVector p3 p1) == 0) = false) (h5 : ¬ cross (toVector p3 p2) (toVector p3 p1) < 0) :
    ccwFace vertices (padRow ncol A) = .ok (padRow ncol A.reverse) := by
  obtain ⟨v0, v1, v2, v3, rfl, a0, a1, a2, a3⟩ := row4 hA h
  rw [ccw4_start hA a2 a3]
  have hf := flip_spec [v0, v1, v2, v3] (List.replicate (ncol - 4) fillValue)
  simp only [List.length_cons, List.length_nil] at hf
  unfold ccwLoop
  rw [padRow, rd_of_some (a := v0) (by simp), ok_bind, a0, ok_bind]
  simp only
  rw [if_neg (by rw [h1]; simp), if_pos h2]
  simp only [List.length_cons, List.length_nil]
  rw [show (0 + 1 + 1 + 1 + 1 : Nat) = 4 from rfl] at hf ⊢
  rw [hf, ok_bind]
  unfold ccwLoop
  rw [rd_of_some (a := v2) (by simp), ok_bind, a2, ok_bind]
  simp only
  rw [if_pos h3]
  unfold ccwLoop
  rw [rd_of_some (a := v1) (by simp), ok_bind, a1, ok_bind]
  simp only
  rw [if_neg (by rw [h4]; simp), if_neg h5]
  rfl

end

namespace Fl

theorem crossR_left {ux vx vy : ℚ} (h1 : 1 / 2 ^ 250 ≤ |ux|) (h2 : 1 / 2 ^ 250 ≤ |vy|) :
    (crossR ux 0 vx vy < 0 ↔ ux * vy < 0) ∧ (0 < crossR ux 0 vx vy ↔ 0 < ux * vy) := by
  have e : crossR ux 0 vx vy = rq (rq ux * rq vy) := by
    unfold crossR
    rw [rq_zero, zero_mul, rq_zero, sub_zero, rq_of_isRep (rq_isRep _)]
  rw [e]
  have hw := le_abs_rq (by norm_num) h1
  obtain ⟨s1, s2⟩ := rq_mul_sign hw (Or.inr h2)
  rw [s1, s2]
  have hne : ux ≠ 0 := fun e => by rw [e, abs_zero] at h1; exact absurd h1 (not_le.2 (by positivity))
  rcases lt_or_gt_of_ne hne with h | h
  · have : rq ux < 0 := by
      rw [abs_rq, abs_of_neg h, rq_neg] at hw
      have : (0 : ℚ) < 1 / 2 ^ 250 := by positivity
      linarith
    constructor
    · constructor
      · intro h'; exact mul_neg_of_neg_of_pos h (pos_of_mul_neg_right h' this.le)
      · intro h'; exact mul_neg_of_neg_of_pos this (pos_of_mul_neg_right h' h.le)
    · constructor
      · intro h'; exact mul_pos_of_neg_of_neg h (neg_of_mul_pos_right h' this.le)
      · intro h'; exact mul_pos_of_neg_of_neg this (neg_of_mul_pos_right h' h.le)
  · have : 0 < rq ux := by
      rw [abs_rq, abs_of_pos h] at hw
      exact lt_of_lt_of_le (by positivity) hw
    constructor
    · constructor
      · intro h'; exact mul_neg_of_pos_of_neg h (neg_of_mul_neg_right h' this.le)
      · intro h'; exact mul_neg_of_pos_of_neg this (neg_of_mul_neg_right h' h.le)
    · constructor
      · intro h'; exact mul_pos h (pos_of_mul_pos_right h' this.le)
      · intro h'; exact mul_pos this (pos_of_mul_pos_right h' h.le)

/-- The turn at a right angle. -/
theorem turn_sign {a b c : Pt ℚ} (ha : Bnd (2 ^ 200) a) (hb : Bnd (2 ^ 200) b) (hc : Bnd (2 ^ 200) c)
    (h : (b.y = a.y ∧ c.x = b.x ∧ 1 / 2 ^ 250 ≤ |b.x - a.x| ∧ 1 / 2 ^ 250 ≤ |c.y - b.y|) ∨
      (b.x = a.x ∧ c.y = b.y ∧ 1 / 2 ^ 250 ≤ |b.y - a.y| ∧ 1 / 2 ^ 250 ≤ |c.x - b.x|)) :
    ∃ s, cross (toVector (fp a) (fp b)) (toVector (fp a) (fp c)) = fin s ∧ (s < 0 ↔ orient a b c < 0) ∧
      (0 < s ↔ 0 < orient a b c) := by
  refine ⟨_, (cross_fl ha hb hc).1, ?_⟩
  unfold orient
  rcases h with ⟨h1, h2, h3, h4⟩ | ⟨h1, h2, h3, h4⟩
  · rw [h1, sub_self, zero_mul, sub_zero]
    rw [h1] at h4
    exact crossR_left h3 h4
  · rw [h1, sub_self, zero_mul, zero_sub, crossR_swap]
    rw [h1] at h4
    obtain ⟨s1, s2⟩ := crossR_left (vx := c.y - a.y) h3 h4
    rw [neg_lt_zero, neg_pos, neg_lt_zero, neg_pos]
    exact ⟨s2, s1⟩

theorem turn_self {a b : Pt ℚ} (ha : Bnd (2 ^ 200) a) (hb : Bnd (2 ^ 200) b) :
    (cross (toVector (fp a) (fp b)) (toVector (fp a) (fp a)) == 0) = true := by
  rw [(cross_fl ha hb ha).1, zero_def, beq_fin]
  unfold crossR
  simp [rq_zero]

theorem rect_stored_of {M : ℚ} {vertices : List (Pt Fl)} {fill : Int} {ncol : Nat} {r : List Int} {c : Box ℚ} (hM : 1 / 2 ^ 100 ≤ M)
    (hM' : M ≤ 2 ^ 198) (hc : GoodRect M c) (hr : Row vertices.length ncol (rowIndices fill r)) {l : List (Pt ℚ)}
    (hl : l ~r rectPts c) (h : facePts vertices fill r = l.map fp ∨ facePts vertices fill r = l.reverse.map fp) :
    storedPts vertices fill ncol r = l.map fp := by
  obtain ⟨x1, x2⟩ := gap_small hM hM' hc hc hc.wide
  obtain ⟨y1, y2⟩ := gap_small hM hM' hc hc hc.high
  have big : M ≤ 2 ^ 200 := hM'.trans (pow_le_pow_right₀ (by norm_num) (by norm_num))
  have bnd : ∀ x y, Usual M x → Usual M y → Bnd (2 ^ 200) (⟨x, y⟩ : Pt ℚ) := fun x y hx hy => ⟨hx.2.1.trans big, hy.2.1.trans big⟩
  have b1 := bnd _ _ hc.usual.xmin hc.usual.ymin
  have b2 := bnd _ _ hc.usual.xmax hc.usual.ymin
  have b3 := bnd _ _ hc.usual.xmax hc.usual.ymax
  have b4 := bnd _ _ hc.usual.xmin hc.usual.ymax
  have t250 : (1 : ℚ) / 2 ^ 250 ≤ 1 / 2 ^ 200 := inv_pow_le (by norm_num)
  have X1 : 1 / 2 ^ 250 ≤ |c.xmax - c.xmin| := by rw [abs_of_pos (by linarith)]; exact t250.trans x2
  have Y1 : 1 / 2 ^ 250 ≤ |c.ymax - c.ymin| := by rw [abs_of_pos (by linarith)]; exact t250.trans y2
  have X2 : 1 / 2 ^ 250 ≤ |c.xmin - c.xmax| := by rw [abs_sub_comm]; exact X1
  have Y2 : 1 / 2 ^ 250 ≤ |c.ymin - c.ymax| := by rw [abs_sub_comm]; exact Y1
  have area : 0 < (c.xmax - c.xmin) * (c.ymax - c.ymin) := mul_pos (by linarith) (by linarith)
  -- counter-clockwise
  have keep : ∀ {p0 p1 p2 p3 : Pt ℚ} {s : ℚ}, facePts vertices fill r = [p0, p1, p2, p3].map fp →
      cross (toVector (fp p2) (fp p3)) (toVector (fp p2) (fp p0)) = fin s → 0 < s →
      storedPts vertices fill ncol r = [p0, p1, p2, p3].map fp := by
    intro p0 p1 p2 p3 s e h1 h2
    rw [storedPts_eq hr (ccw4_keep hr (p0 := fp p0) (p1 := fp p1) (p2 := fp p2) (p3 := fp p3) e (by rw [h1, zero_def, beq_fin]; simp [h2.ne'])
      (by rw [h1, zero_def, lt_fin]; linarith))]
    exact e
  have rev : ∀ {p0 p1 p2 p3 : Pt ℚ} {s s' : ℚ}, facePts vertices fill r = [p0, p1, p2, p3].map fp →
      cross (toVector (fp p2) (fp p3)) (toVector (fp p2) (fp p0)) = fin s → s < 0 →
      (cross (toVector (fp p2) (fp p3)) (toVector (fp p2) (fp p2)) == 0) = true →
      cross (toVector (fp p3) (fp p2)) (toVector (fp p3) (fp p1)) = fin s' → 0 < s' →
      storedPts vertices fill ncol r = [p3, p2, p1, p0].map fp := by
    intro p0 p1 p2 p3 s s' e h1 h2 h3 h4 h5
    rw [storedPts_eq hr.reverse (ccw4_flip hr (p0 := fp p0) (p1 := fp p1) (p2 := fp p2) (p3 := fp p3) e
      (by rw [h1, zero_def, beq_fin]; simp [h2.ne]) (by rw [h1, zero_def, lt_fin]; linarith) h3
      (by rw [h4, zero_def, beq_fin]; simp [h5.ne']) (by rw [h4, zero_def, lt_fin]; linarith)), ptsOf_reverse]
    have : ptsOf vertices (rowIndices fill r) = [fp p0, fp p1, fp p2, fp p3] := e
    rw [this]; rfl
  rcases rect_rotations hM hM' hc hc hl with e | e | e | e <;> subst e <;> rcases h with h | h
  · obtain ⟨s, e1, _, e2⟩ := turn_sign b3 b4 b1 (Or.inl ⟨rfl, rfl, X2, Y2⟩)
    exact keep h e1 (e2.2 (by unfold orient; simp only; linarith))
  · obtain ⟨s, e1, e2, _⟩ := turn_sign b2 b1 b4 (Or.inl ⟨rfl, rfl, X2, Y1⟩)
    obtain ⟨s', e3, _, e4⟩ := turn_sign b1 b2 b3 (Or.inl ⟨rfl, rfl, X1, Y1⟩)
    exact rev h e1 (e2.2 (by unfold orient; simp only; linarith)) (turn_self b2 b1) e3
      (e4.2 (by unfold orient; simp only; linarith))
  · obtain ⟨s, e1, _, e2⟩ := turn_sign b4 b1 b2 (Or.inr ⟨rfl, rfl, Y2, X1⟩)
    exact keep h e1 (e2.2 (by unfold orient; simp only; linarith))
  · obtain ⟨s, e1, e2, _⟩ := turn_sign b3 b2 b1 (Or.inr ⟨rfl, rfl, Y2, X2⟩)
    obtain ⟨s', e3, _, e4⟩ := turn_sign b2 b3 b4 (Or.inr ⟨rfl, rfl, Y1, X2⟩)
    exact rev h e1 (e2.2 (by unfold orient; simp only; linarith)) (turn_self b3 b2) e3
      (e4.2 (by unfold orient; simp only; linarith))
  · obtain ⟨s, e1, _, e2⟩ := turn_sign b1 b2 b3 (Or.inl ⟨rfl, rfl, X1, Y1⟩)
    exact keep h e1 (e2.2 (by unfold orient; simp only; linarith))
  · obtain ⟨s, e1, e2, _⟩ := turn_sign b4 b3 b2 (Or.inl ⟨rfl, rfl, X1, Y2⟩)
    obtain ⟨s', e3, _, e4⟩ := turn_sign b3 b4 b1 (Or.inl ⟨rfl, rfl, X2, Y2⟩)
    exact rev h e1 (e2.2 (by unfold orient; simp only; linarith)) (turn_self b4 b3) e3
      (e4.2 (by unfold orient; simp only; linarith))
  · obtain ⟨s, e1, _, e2⟩ := turn_sign b2 b3 b4 (Or.inr ⟨rfl, rfl, Y1, X2⟩)
    exact keep h e1 (e2.2 (by unfold orient; simp only; linarith))
  · obtain ⟨s, e1, e2, _⟩ := turn_sign b1 b4 b3 (Or.inr ⟨rfl, rfl, Y1, X1⟩)
    obtain ⟨s', e3, _, e4⟩ := turn_sign b4 b1 b2 (Or.inr ⟨rfl, rfl, Y2, X1⟩)
    exact rev h e1 (e2.2 (by unfold orient; simp only; linarith)) (turn_self b1 b4) e3
      (e4.2 (by unfold orient; simp only; linarith))

theorem rect_stored {M : ℚ} {vertices : List (Pt Fl)} {fill : Int} {ncol : Nat} {r : List Int} {c : Box ℚ} (hM : 1 / 2 ^ 100 ≤ M)
    (hM' : M ≤ 2 ^ 198) (hc : GoodRect M c) (hr : Row vertices.length ncol (rowIndices fill r))
    (h : IsRect (facePts vertices fill r) c) : ∃ l, l ~r rectPts c ∧ storedPts vertices fill ncol r = l.map fp := by
  obtain ⟨l, hl, h⟩ := h
  exact ⟨l, hl, rect_stored_of hM hM' hc hr hl h⟩

end Fl

end Celltree
