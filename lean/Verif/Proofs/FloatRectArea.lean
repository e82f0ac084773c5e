import Verif.Proofs.FloatRectClip
import Verif.Proofs.FloatBuild
import Verif.Proofs.FloatPoint
import Verif.Proofs.FloatNear

/-!
# Areas of intersection of rectangles in binary64
-/

set_option linter.unusedSectionVars false

namespace Celltree.Fl

/-! ## Clipping -/

section
variable {M : ℚ} {a c : Box ℚ} (hM : 1 / 2 ^ 100 ≤ M) (hM' : M ≤ 2 ^ 198) (ha : GoodRect M a) (hc : GoodRect M c)
include hM hM' ha hc

theorem rect_rotations {cl : List (Pt ℚ)} {c : Box ℚ} (h : cl ~r rectPts c) :
    cl = [⟨c.xmin, c.ymin⟩, ⟨c.xmax, c.ymin⟩, ⟨c.xmax, c.ymax⟩, ⟨c.xmin, c.ymax⟩] ∨
    cl = [⟨c.xmax, c.ymin⟩, ⟨c.xmax, c.ymax⟩, ⟨c.xmin, c.ymax⟩, ⟨c.xmin, c.ymin⟩] ∨
    cl = [⟨c.xmax, c.ymax⟩, ⟨c.xmin, c.ymax⟩, ⟨c.xmin, c.ymin⟩, ⟨c.xmax, c.ymin⟩] ∨
    cl = [⟨c.xmin, c.ymax⟩, ⟨c.xmin, c.ymin⟩, ⟨c.xmax, c.ymin⟩, ⟨c.xmax, c.ymax⟩] := by
  obtain ⟨n, hn⟩ := h.symm
  rw [← hn, ← List.rotate_mod]
  have : n % (rectPts c).length < 4 := Nat.mod_lt _ (by simp [rectPts])
  generalize n % (rectPts c).length = k at this
  unfold rectPts
  interval_cases k
  · exact Or.inl rfl
  · exact Or.inr (Or.inl rfl)
  · exact Or.inr (Or.inr (Or.inl rfl))
  · exact Or.inr (Or.inr (Or.inr rfl))

theorem rect_clip {l cl : List (Pt ℚ)} (hl : l ~r rectPts a) (hcl : cl ~r rectPts c) :
    Outcome M a c (polygonPolygonClip (l.map fp) (cl.map fp)) := by
  have hM0 : 0 < M := lt_of_lt_of_le (by positivity) hM
  have hlen : l.length = 4 := by rw [hl.perm.length_eq]; rfl
  have hlen' : cl.length = 4 := by rw [hcl.perm.length_eq]; rfl
  have h0 : State a c (M / 2 ^ 46 + M / 2 ^ 48) false false false false l ⟨a.xmin, a.ymin⟩ ⟨a.xmax, a.ymin⟩ ⟨a.xmax, a.ymax⟩
      ⟨a.xmin, a.ymax⟩ := by
    refine ⟨Same.of_rotated hl (by simp [rectPts]), ?_, Or.inl ⟨rfl, rfl, by simp⟩, Or.inl ⟨rfl, rfl, by simp⟩,
      Or.inl ⟨rfl, rfl, by simp⟩, Or.inl ⟨rfl, rfl, by simp⟩, by simp, by simp, by simp, by simp⟩
    have hx := ha.usual.xmin.1
    have hx' := ha.usual.xmax.1
    have hy := ha.usual.ymin.1
    have hy' := ha.usual.ymax.1
    intro q hq
    simp only [List.mem_cons, List.not_mem_nil, or_false] at hq
    rcases hq with rfl | rfl | rfl | rfl <;> exact ⟨by assumption, by assumption⟩
  unfold polygonPolygonClip
  rw [if_neg (by rw [List.length_map, hlen]; unfold clipMaxNVertex maxNVertex; norm_num)]
  have e1 : M / 2 ^ 46 + M / 2 ^ 48 + M / 2 ^ 48 + M / 2 ^ 48 + M / 2 ^ 48 + M / 2 ^ 48 ≤ M / 2 ^ 44 := by
    have h1 : M / 2 ^ 46 = 4 * (M / 2 ^ 48) := by ring
    have h2 : M / 2 ^ 44 = 16 * (M / 2 ^ 48) := by ring
    have h3 : 0 < M / 2 ^ 48 := by positivity
    linarith
  have h3 : 0 < M / 2 ^ 48 := by positivity
  have h5 : 1 / 2 ^ 300 ≤ M / 2 ^ 46 := by
    have h1 : (1 : ℚ) / 2 ^ 300 ≤ 1 / 2 ^ 100 * (1 / 2 ^ 46) := by
      rw [div_mul_div_comm, mul_one, ← pow_add]
      exact inv_pow_le (by norm_num)
    refine h1.trans ?_
    rw [div_eq_mul_one_div M]
    exact mul_le_mul_of_nonneg_right hM (by positivity)
  have h6 : (0 : ℚ) < M / 2 ^ 46 := by positivity
  have h4 : 3 ≤ l.length := by omega
  rcases rect_rotations hM hM' ha hc hcl with h | h | h | h <;> subst h <;>
    simp only [List.map_cons, List.map_nil, List.length_cons, List.length_nil] <;>
    rw [show (rdI (_ :: _ :: _ :: _ :: []) _ : Celltree.M (Pt Fl)) = .ok _ from rfl] <;> simp only [bind, Except.bind]
  · refine step_left hM hM' ha hc h0 h4 (by linarith) (by linarith) fun l1 LL UL h1 b1 => ?_
    refine step_bottom hM hM' ha hc h1 b1 (by linarith) (by linarith) fun l2 LL LR h2 b2 => ?_
    refine step_right hM hM' ha hc h2 b2 (by linarith) (by linarith) fun l3 LR UR h3 b3 => ?_
    refine step_top hM hM' ha hc h3 b3 (by linarith) (by linarith) fun l4 UR UL h4 b4 => ?_
    exact Or.inr ⟨_, _, _, _, _, _, rfl, b4, by linarith, h5.trans (by linarith), by linarith, h4⟩
  · refine step_bottom hM hM' ha hc h0 h4 (by linarith) (by linarith) fun l2 LL LR h2 b2 => ?_
    refine step_right hM hM' ha hc h2 b2 (by linarith) (by linarith) fun l3 LR UR h3 b3 => ?_
    refine step_top hM hM' ha hc h3 b3 (by linarith) (by linarith) fun l4 UR UL h4 b4 => ?_
    refine step_left hM hM' ha hc h4 b4 (by linarith) (by linarith) fun l1 LL UL h1 b1 => ?_
    exact Or.inr ⟨_, _, _, _, _, _, rfl, b1, by linarith, h5.trans (by linarith), by linarith, h1⟩
  · refine step_right hM hM' ha hc h0 h4 (by linarith) (by linarith) fun l3 LR UR h3 b3 => ?_
    refine step_top hM hM' ha hc h3 b3 (by linarith) (by linarith) fun l4 UR UL h4 b4 => ?_
    refine step_left hM hM' ha hc h4 b4 (by linarith) (by linarith) fun l1 LL UL h1 b1 => ?_
    refine step_bottom hM hM' ha hc h1 b1 (by linarith) (by linarith) fun l2 LL LR h2 b2 => ?_
    exact Or.inr ⟨_, _, _, _, _, _, rfl, b2, by linarith, h5.trans (by linarith), by linarith, h2⟩
  · refine step_top hM hM' ha hc h0 h4 (by linarith) (by linarith) fun l4 UR UL h4 b4 => ?_
    refine step_left hM hM' ha hc h4 b4 (by linarith) (by linarith) fun l1 LL UL h1 b1 => ?_
    refine step_bottom hM hM' ha hc h1 b1 (by linarith) (by linarith) fun l2 LL LR h2 b2 => ?_
    refine step_right hM hM' ha hc h2 b2 (by linarith) (by linarith) fun l3 LR UR h3 b3 => ?_
    exact Or.inr ⟨_, _, _, _, _, _, rfl, b3, by linarith, h5.trans (by linarith), by linarith, h3⟩

end

/-! ## Areas of triangles and quadrilaterals -/

theorem cross_vec {ux uy vx vy : ℚ} (h1 : |ux| ≤ 2 ^ 200) (h2 : |uy| ≤ 2 ^ 200) (h3 : |vx| ≤ 2 ^ 200) (h4 : |vy| ≤ 2 ^ 200) :
    cross (⟨fin (rq ux), fin (rq uy)⟩ : Pt Fl) ⟨fin (rq vx), fin (rq vy)⟩ = fin (crossR ux uy vx vy) ∧
      |crossR ux uy vx vy| ≤ 2 ^ 401 := by
  unfold cross crossR
  simp only
  have b1 := abs_mul_le_pow (abs_rq_le h1) (abs_rq_le h4)
  have b2 := abs_mul_le_pow (abs_rq_le h2) (abs_rq_le h3)
  have b3 := abs_sub_le_pow (abs_rq_le b1) (abs_rq_le b2)
  rw [mul_fin (k := 200 + 200) (by norm_num) b1, mul_fin (k := 200 + 200) (by norm_num) b2,
    sub_fin (k := 200 + 200 + 1) (by norm_num) b3]
  exact ⟨rfl, abs_rq_le b3⟩

theorem abs_isRep {x : ℚ} (h : IsRep x) : IsRep |x| := by
  rcases abs_choice x with e | e <;> rw [e]
  · exact h
  · exact h.neg

theorem crossR_rep (ux uy vx vy : ℚ) : rq |crossR ux uy vx vy| = |crossR ux uy vx vy| :=
  rq_of_isRep (abs_isRep (rq_isRep _))

theorem sum_err {x X : ℚ} (h0 : 0 ≤ x) (h : x ≤ X) (hX : 1 / 2 ^ 900 ≤ X) : |rq (1 / 2 * rq x) - x / 2| ≤ 2 * u * X := by
  have hu := u_pos
  have hu' : u ≤ 1 / 100 := u_le.trans (by norm_num)
  have hX0 : 0 < X := lt_of_lt_of_le (by positivity) hX
  have e1 := rq_abs (x := x) (R := X) (by rwa [abs_of_nonneg h0]) ((inv_pow_le (by norm_num)).trans hX)
  have huX : u * X ≤ 1 / 100 * X := mul_le_mul_of_nonneg_right hu' hX0.le
  have hr := rq_nonneg h0
  rw [abs_le] at e1
  have e2 := rq_abs (x := 1 / 2 * rq x) (R := X) (by rw [abs_of_nonneg (by linarith)]; linarith [e1.2])
    ((inv_pow_le (by norm_num)).trans hX)
  rw [abs_le] at e2 ⊢
  constructor <;> linarith [e1.1, e1.2, e2.1, e2.2, mul_pos hu hX0]

section
variable {M : ℚ} (hM : 1 / 2 ^ 100 ≤ M) (hM' : M ≤ 2 ^ 198)
include hM hM'

/-- The computed area of a triangle or a quadrilateral, in the fan order. -/
theorem area_fan {R S : ℚ} {l : List (Pt ℚ)} (hR : 1 / 2 ^ 300 ≤ R) (hS : 1 / 2 ^ 300 ≤ S)
    (hb : ∀ p ∈ l, |p.x| ≤ 2 * M ∧ |p.y| ≤ 2 * M) (hd : ∀ p ∈ l, ∀ q ∈ l, |p.x - q.x| ≤ R ∧ |p.y - q.y| ≤ S) :
    (∀ a b c, l = [a, b, c] → ∃ x, polygonArea (l.map fp) = .ok (fin x) ∧ 0 ≤ x ∧
      |x - abs ((b.x - a.x) * (a.y - c.y) - (b.y - a.y) * (a.x - c.x)) / 2| ≤ 20 * u * (R * S)) ∧
    (∀ a b c d, l = [a, b, c, d] → ∃ x, polygonArea (l.map fp) = .ok (fin x) ∧ 0 ≤ x ∧
      |x - (abs ((b.x - a.x) * (a.y - c.y) - (b.y - a.y) * (a.x - c.x)) +
        abs ((a.x - c.x) * (a.y - d.y) - (a.y - c.y) * (a.x - d.x))) / 2| ≤ 20 * u * (R * S)) := by
  have hu := u_pos
  have hu' : u ≤ 1 / 100 := u_le.trans (by norm_num)
  have hR0 : 0 < R := lt_of_lt_of_le (by positivity) hR
  have hS0 : 0 < S := lt_of_lt_of_le (by positivity) hS
  have hRS : 0 < R * S := mul_pos hR0 hS0
  have hRS' : 1 / 2 ^ 900 ≤ 5 * (R * S) := by
    have h1 : (1 : ℚ) / 2 ^ 300 * (1 / 2 ^ 300) ≤ R * S := mul_le_mul hR hS (by positivity) hR0.le
    have h2 : (1 : ℚ) / 2 ^ 900 ≤ 1 / 2 ^ 300 * (1 / 2 ^ 300) := by
      rw [div_mul_div_comm, mul_one, ← pow_add]; exact inv_pow_le (by norm_num)
    linarith
  have hR5 : (1 : ℚ) / 2 ^ 500 ≤ R := (inv_pow_le (by norm_num)).trans hR
  have hS5 : (1 : ℚ) / 2 ^ 500 ≤ S := (inv_pow_le (by norm_num)).trans hS
  have huRS : u * (R * S) ≤ 1 / 100 * (R * S) := mul_le_mul_of_nonneg_right hu' hRS.le
  -- one triangle
  have tri : ∀ ux uy vx vy : ℚ, |ux| ≤ R → |vx| ≤ R → |uy| ≤ S → |vy| ≤ S →
      abs (|crossR ux uy vx vy| - |ux * vy - uy * vx|) ≤ 9 * u * (R * S) ∧ |crossR ux uy vx vy| ≤ 5 / 2 * (R * S) := by
    intro ux uy vx vy h1 h2 h3 h4
    have e := cross_err h1 h2 h3 h4 hR5 hS5
    have e' : |crossR ux uy vx vy - (ux * vy - uy * vx)| ≤ 9 * u * (R * S) := e
    refine ⟨(abs_abs_sub_abs_le_abs_sub _ _).trans e', ?_⟩
    have b1 : |ux * vy| ≤ R * S := by rw [abs_mul]; exact mul_le_mul h1 h4 (abs_nonneg _) hR0.le
    have b2 : |uy * vx| ≤ R * S := by
      rw [abs_mul, mul_comm R S]; exact mul_le_mul h3 h2 (abs_nonneg _) hS0.le
    rw [abs_le] at b1 b2 e' ⊢
    constructor <;> linarith [b1.1, b1.2, b2.1, b2.2, e'.1, e'.2]
  have vec : ∀ p ∈ l, ∀ q ∈ l, toVector (fp p) (fp q) = (⟨fin (rq (q.x - p.x)), fin (rq (q.y - p.y))⟩ : Pt Fl) := by
    intro p hp q hq
    unfold toVector fp
    rw [Pt.mk.injEq]
    exact ⟨diff_fin hM hM' (hb q hq).1 (hb p hp).1, diff_fin hM hM' (hb q hq).2 (hb p hp).2⟩
  have big : ∀ p ∈ l, ∀ q ∈ l, |p.x - q.x| ≤ 2 ^ 200 ∧ |p.y - q.y| ≤ 2 ^ 200 := fun p hp q hq =>
    ⟨(diff_le hM hM' (hb p hp).1 (hb q hq).1).1, (diff_le hM hM' (hb p hp).2 (hb q hq).2).1⟩
  have rep : ∀ ux uy vx vy : ℚ, rq (0 + |crossR ux uy vx vy|) = |crossR ux uy vx vy| := fun ux uy vx vy => by
    rw [zero_add]; exact crossR_rep ux uy vx vy
  refine ⟨?_, ?_⟩
  · rintro a b c rfl
    have ma : a ∈ [a, b, c] := by simp
    have mb : b ∈ [a, b, c] := by simp
    have mc : c ∈ [a, b, c] := by simp
    have w1 := big b mb a ma
    have w2 := big a ma c mc
    obtain ⟨c1, c2⟩ := cross_vec w1.1 w1.2 w2.1 w2.2
    obtain ⟨t1, t2⟩ := tri _ _ _ _ (hd b mb a ma).1 (hd a ma c mc).1 (hd b mb a ma).2 (hd a ma c mc).2
    set t := crossR (b.x - a.x) (b.y - a.y) (a.x - c.x) (a.y - c.y) with ht
    have c3 : |(|t|)| ≤ 2 ^ 401 := by rwa [abs_abs]
    have hx0 : (0 : ℚ) ≤ |t| := abs_nonneg _
    refine ⟨rq (1 / 2 * rq |t|), ?_, rq_nonneg (mul_nonneg (by norm_num) (rq_nonneg hx0)), ?_⟩
    · simp only [List.map_cons, List.map_nil, polygonArea, polygonAreaLoop]
      rw [vec a ma b mb, vec c mc a ma, c1, fabs_fin, zero_def, add_fin (k := 401) (by norm_num) (by rwa [zero_add]), ht, rep,
        ← ht, half_fl, mul_fin (k := 401) (by norm_num)]
      · rw [ht, crossR_rep]
      · rw [abs_mul, abs_abs]
        refine le_trans ?_ c2
        have : |(1 : ℚ) / 2| = 1 / 2 := by norm_num
        rw [this]; linarith
    · have e := sum_err hx0 (t2.trans (by linarith : 5 / 2 * (R * S) ≤ 5 * (R * S))) hRS'
      rw [abs_le] at e t1 ⊢
      have := mul_pos hu hRS
      constructor <;> linarith [e.1, e.2, t1.1, t1.2]
  · rintro a b c d rfl
    have ma : a ∈ [a, b, c, d] := by simp
    have mb : b ∈ [a, b, c, d] := by simp
    have mc : c ∈ [a, b, c, d] := by simp
    have md : d ∈ [a, b, c, d] := by simp
    have w1 := big b mb a ma
    have w2 := big a ma c mc
    have w3 := big a ma d md
    obtain ⟨c1, c2⟩ := cross_vec w1.1 w1.2 w2.1 w2.2
    obtain ⟨d1, d2⟩ := cross_vec w2.1 w2.2 w3.1 w3.2
    obtain ⟨t1, t2⟩ := tri _ _ _ _ (hd b mb a ma).1 (hd a ma c mc).1 (hd b mb a ma).2 (hd a ma c mc).2
    obtain ⟨s1, s2⟩ := tri _ _ _ _ (hd a ma c mc).1 (hd a ma d md).1 (hd a ma c mc).2 (hd a ma d md).2
    set t := crossR (b.x - a.x) (b.y - a.y) (a.x - c.x) (a.y - c.y) with ht
    set s := crossR (a.x - c.x) (a.y - c.y) (a.x - d.x) (a.y - d.y) with hs
    have ht0 : (0 : ℚ) ≤ |t| := abs_nonneg _
    have hs0 : (0 : ℚ) ≤ |s| := abs_nonneg _
    have c3 : |(|t|)| ≤ 2 ^ 401 := by rwa [abs_abs]
    have d3 : abs (|t| + |s|) ≤ 2 ^ 402 := by
      rw [abs_of_nonneg (by linarith)]
      have : (2 : ℚ) ^ 402 = 2 ^ 401 + 2 ^ 401 := by rw [pow_succ]; ring
      rw [this]; exact add_le_add c2 d2
    refine ⟨rq (1 / 2 * rq (|t| + |s|)), ?_, rq_nonneg (mul_nonneg (by norm_num) (rq_nonneg (by linarith))), ?_⟩
    · simp only [List.map_cons, List.map_nil, polygonArea, polygonAreaLoop]
      rw [vec a ma b mb, vec c mc a ma, vec d md a ma, c1, d1, fabs_fin, fabs_fin, zero_def,
        add_fin (k := 401) (by norm_num) (by rwa [zero_add]), ht, rep,
        ← ht, add_fin (k := 402) (by norm_num) d3, half_fl, mul_fin (k := 402) (by norm_num)]
      rw [abs_mul]
      refine le_trans ?_ (abs_rq_le d3)
      have : |(1 : ℚ) / 2| = 1 / 2 := by norm_num
      rw [this]; linarith [abs_nonneg (rq (|t| + |s|))]
    · have e := sum_err (by linarith : 0 ≤ |t| + |s|) (by linarith : |t| + |s| ≤ 5 * (R * S)) hRS'
      rw [abs_le] at e t1 s1 ⊢
      have := mul_pos hu hRS
      constructor <;> linarith [e.1, e.2, t1.1, t1.2, s1.1, s1.2]

end

/-! ## Near a rectangle -/

theorem near_cross {p q s t W H δ : ℚ} (hW : 0 ≤ W) (hH : 0 ≤ H) (hδ : 0 ≤ δ) (hp : |p - W| ≤ 2 * δ ∨ |p + W| ≤ 2 * δ)
    (hq : |q - H| ≤ 2 * δ ∨ |q + H| ≤ 2 * δ) (hs : |s| ≤ 2 * δ) (ht : |t| ≤ W + H + 2 * δ) :
    abs (|p * q - s * t| - W * H) ≤ 4 * δ * (W + H + 2 * δ) := by
  have key : ∀ p q s t : ℚ, |p - W| ≤ 2 * δ → |q - H| ≤ 2 * δ → |s| ≤ 2 * δ → |t| ≤ W + H + 2 * δ →
      abs (|p * q - s * t| - W * H) ≤ 4 * δ * (W + H + 2 * δ) := by
    intro p q s t hp hq hs ht
    have e : |p * q - s * t| - W * H = |p * q - s * t| - |W * H| := by rw [abs_of_nonneg (mul_nonneg hW hH)]
    rw [e]
    refine (abs_abs_sub_abs_le_abs_sub _ _).trans ?_
    have hq' : |q| ≤ H + 2 * δ := by rw [abs_le] at hq ⊢; constructor <;> linarith [hq.1, hq.2]
    have h1 : |(p - W) * q| ≤ 2 * δ * (H + 2 * δ) := by
      rw [abs_mul]; exact mul_le_mul hp hq' (abs_nonneg _) (by linarith)
    have h2 : |W * (q - H)| ≤ W * (2 * δ) := by
      rw [abs_mul, abs_of_nonneg hW]; exact mul_le_mul_of_nonneg_left hq hW
    have h3 : |s * t| ≤ 2 * δ * (W + H + 2 * δ) := by
      rw [abs_mul]; exact mul_le_mul hs ht (abs_nonneg _) (by linarith)
    rw [abs_le] at h1 h2 h3 ⊢
    constructor <;> nlinarith [h1.1, h1.2, h2.1, h2.2, h3.1, h3.2]
  rcases hp with hp | hp <;> rcases hq with hq | hq
  · exact key p q s t hp hq hs ht
  · have := key p (-q) (-s) t hp (by rw [← abs_neg]; rwa [show -(-q - H) = q + H by ring]) (by rwa [abs_neg]) ht
    rwa [show p * -q - -s * t = -(p * q - s * t) by ring, abs_neg] at this
  · have := key (-p) q (-s) t (by rw [← abs_neg]; rwa [show -(-p - W) = p + W by ring]) hq (by rwa [abs_neg]) ht
    rwa [show -p * q - -s * t = -(p * q - s * t) by ring, abs_neg] at this
  · have := key (-p) (-q) s t (by rw [← abs_neg]; rwa [show -(-p - W) = p + W by ring])
      (by rw [← abs_neg]; rwa [show -(-q - H) = q + H by ring]) hs ht
    rwa [show -p * -q - s * t = p * q - s * t by ring] at this

theorem Side.near_max {o c δ p q : ℚ} (h : Side 1 o c δ true p q) (hδ : 0 ≤ δ) : |p - max o c| ≤ δ ∧ |q - max o c| ≤ δ := by
  rcases h with ⟨rfl, rfl, h⟩ | ⟨_, h, h3, h4⟩
  · have := h rfl
    rw [max_eq_left (by linarith), sub_self, abs_zero]; exact ⟨hδ, hδ⟩
  · rw [max_eq_right (by linarith)]; exact ⟨h3, h4⟩

theorem Side.near_min {o c δ p q : ℚ} (h : Side (-1) o c δ true p q) (hδ : 0 ≤ δ) : |p - min o c| ≤ δ ∧ |q - min o c| ≤ δ := by
  rcases h with ⟨rfl, rfl, h⟩ | ⟨_, h, h3, h4⟩
  · have := h rfl
    rw [min_eq_left (by linarith), sub_self, abs_zero]; exact ⟨hδ, hδ⟩
  · rw [min_eq_right (by linarith)]; exact ⟨h3, h4⟩

/-! ## The area of intersection -/

theorem rotations4 {l : List (Pt ℚ)} {p0 p1 p2 p3 : Pt ℚ} (h : l ~r [p0, p1, p2, p3]) :
    l = [p0, p1, p2, p3] ∨ l = [p1, p2, p3, p0] ∨ l = [p2, p3, p0, p1] ∨ l = [p3, p0, p1, p2] := by
  obtain ⟨n, hn⟩ := h.symm
  rw [← hn, ← List.rotate_mod]
  have : n % [p0, p1, p2, p3].length < 4 := Nat.mod_lt _ (by simp)
  generalize n % [p0, p1, p2, p3].length = k at this
  interval_cases k
  · exact Or.inl rfl
  · exact Or.inr (Or.inl rfl)
  · exact Or.inr (Or.inr (Or.inl rfl))
  · exact Or.inr (Or.inr (Or.inr rfl))

/-- Fan areas of four points near the corners of a rectangle. -/
theorem fan_near {l : List (Pt ℚ)} {LL LR UR UL : Pt ℚ} {X Y W H δ : ℚ} (hW : 0 ≤ W) (hH : 0 ≤ H) (hδ : 0 ≤ δ)
    (h : l ~r [LL, LR, UR, UL]) (x0 : |LL.x - X| ≤ δ) (x1 : |LR.x - (X + W)| ≤ δ) (x2 : |UR.x - (X + W)| ≤ δ) (x3 : |UL.x - X| ≤ δ)
    (y0 : |LL.y - Y| ≤ δ) (y1 : |LR.y - Y| ≤ δ) (y2 : |UR.y - (Y + H)| ≤ δ) (y3 : |UL.y - (Y + H)| ≤ δ) :
    ∃ a b c d, l = [a, b, c, d] ∧
      abs (abs ((b.x - a.x) * (a.y - c.y) - (b.y - a.y) * (a.x - c.x)) - W * H) ≤ 4 * δ * (W + H + 2 * δ) ∧
      abs (abs ((a.x - c.x) * (a.y - d.y) - (a.y - c.y) * (a.x - d.x)) - W * H) ≤ 4 * δ * (W + H + 2 * δ) := by
  rw [abs_le] at x0 x1 x2 x3 y0 y1 y2 y3
  have sw : ∀ p q s t : ℚ, abs (|s * t - p * q| - W * H) = abs (|q * p - s * t| - W * H) := by
    intro p q s t
    rw [abs_sub_comm (s * t), mul_comm q p]
  have nm : ∀ {v w : ℚ}, -(2 * δ) ≤ v - w → v - w ≤ 2 * δ → |v - w| ≤ 2 * δ := fun h1 h2 => abs_le.2 ⟨h1, h2⟩
  rcases rotations4 h with e | e | e | e <;> refine ⟨_, _, _, _, e, ?_, ?_⟩
  · refine near_cross hW hH hδ (Or.inl (abs_le.2 ⟨?_, ?_⟩)) (Or.inr (abs_le.2 ⟨?_, ?_⟩)) (abs_le.2 ⟨?_, ?_⟩) (abs_le.2 ⟨?_, ?_⟩) <;>
      linarith
  · rw [mul_comm (LL.y - UR.y)]
    refine near_cross hW hH hδ (Or.inr (abs_le.2 ⟨?_, ?_⟩)) (Or.inr (abs_le.2 ⟨?_, ?_⟩)) (abs_le.2 ⟨?_, ?_⟩) (abs_le.2 ⟨?_, ?_⟩) <;>
      linarith
  · rw [sw]
    refine near_cross hW hH hδ (Or.inl (abs_le.2 ⟨?_, ?_⟩)) (Or.inl (abs_le.2 ⟨?_, ?_⟩)) (abs_le.2 ⟨?_, ?_⟩) (abs_le.2 ⟨?_, ?_⟩) <;>
      linarith
  · rw [sw, mul_comm (LR.x - UL.x)]
    refine near_cross hW hH hδ (Or.inl (abs_le.2 ⟨?_, ?_⟩)) (Or.inr (abs_le.2 ⟨?_, ?_⟩)) (abs_le.2 ⟨?_, ?_⟩) (abs_le.2 ⟨?_, ?_⟩) <;>
      linarith
  · refine near_cross hW hH hδ (Or.inr (abs_le.2 ⟨?_, ?_⟩)) (Or.inl (abs_le.2 ⟨?_, ?_⟩)) (abs_le.2 ⟨?_, ?_⟩) (abs_le.2 ⟨?_, ?_⟩) <;>
      linarith
  · rw [mul_comm (UR.y - LL.y)]
    refine near_cross hW hH hδ (Or.inl (abs_le.2 ⟨?_, ?_⟩)) (Or.inl (abs_le.2 ⟨?_, ?_⟩)) (abs_le.2 ⟨?_, ?_⟩) (abs_le.2 ⟨?_, ?_⟩) <;>
      linarith
  · rw [sw]
    refine near_cross hW hH hδ (Or.inr (abs_le.2 ⟨?_, ?_⟩)) (Or.inr (abs_le.2 ⟨?_, ?_⟩)) (abs_le.2 ⟨?_, ?_⟩) (abs_le.2 ⟨?_, ?_⟩) <;>
      linarith
  · rw [sw, mul_comm (UL.x - LR.x)]
    refine near_cross hW hH hδ (Or.inr (abs_le.2 ⟨?_, ?_⟩)) (Or.inl (abs_le.2 ⟨?_, ?_⟩)) (abs_le.2 ⟨?_, ?_⟩) (abs_le.2 ⟨?_, ?_⟩) <;>
      linarith

theorem three_or_four {l : List (Pt ℚ)} (h3 : 3 ≤ l.length) (h4 : l.length ≤ 4) :
    (∃ p q r, l = [p, q, r]) ∨ ∃ p q r s, l = [p, q, r, s] := by
  match l, h3, h4 with
  | [p, q, r], _, _ => exact Or.inl ⟨p, q, r, rfl⟩
  | [p, q, r, s], _, _ => exact Or.inr ⟨p, q, r, s, rfl⟩

theorem near_area {x p q W H d : ℚ} (hW : 0 ≤ W) (hH : 0 ≤ H) (hd : 0 < d) (hx : |x - (p + q) / 2| ≤ d / 8 * (H + 2 * d))
    (hp : |p - W * H| ≤ 4 * d * (W + H + 2 * d)) (hq : |q - W * H| ≤ 4 * d * (W + H + 2 * d)) :
    |x - W * H| ≤ 16 * d * (W + H + 16 * d) := by
  rw [abs_le] at *
  have h1 := mul_nonneg hd.le hW
  have h2 := mul_nonneg hd.le hH
  have h3 := mul_pos hd hd
  have e1 : d / 8 * (H + 2 * d) = d * H / 8 + d * d / 4 := by ring
  have e2 : 4 * d * (W + H + 2 * d) = 4 * (d * W) + 4 * (d * H) + 8 * (d * d) := by ring
  have e3 : 16 * d * (W + H + 16 * d) = 16 * (d * W) + 16 * (d * H) + 256 * (d * d) := by ring
  rw [e1] at hx
  rw [e2] at hp hq
  rw [e3]
  constructor <;> linarith [hx.1, hx.2, hp.1, hp.2, hq.1, hq.2]

theorem small_area {x W H d : ℚ} (hW : 0 ≤ W) (hH : 0 ≤ H) (hd : 0 < d) (hx0 : 0 ≤ x)
    (hx : x ≤ 2 * ((W + 2 * d) * (H + 2 * d)) + d / 8 * (H + 2 * d)) (h : W ≤ 2 * d ∨ H ≤ 2 * d) :
    |x - W * H| ≤ 16 * d * (W + H + 16 * d) := by
  have h1 := mul_nonneg hd.le hW
  have h2 := mul_nonneg hd.le hH
  have h3 := mul_pos hd hd
  have h4 := mul_nonneg hW hH
  have h5 : W * H ≤ 2 * (d * W) + 2 * (d * H) := by
    rcases h with h | h
    · have := mul_le_mul_of_nonneg_right h hH
      linarith
    · have := mul_le_mul_of_nonneg_left h hW
      linarith
  have e1 : 2 * ((W + 2 * d) * (H + 2 * d)) + d / 8 * (H + 2 * d) =
    2 * (W * H) + 4 * (d * W) + 4 * (d * H) + 8 * (d * d) + d * H / 8 + d * d / 4 := by ring
  have e3 : 16 * d * (W + H + 16 * d) = 16 * (d * W) + 16 * (d * H) + 256 * (d * d) := by ring
  rw [e1] at hx
  rw [abs_le, e3]
  constructor <;> linarith

section
variable {M : ℚ} {a c : Box ℚ} (hM : 1 / 2 ^ 100 ≤ M) (hM' : M ≤ 2 ^ 198) (ha : GoodRect M a) (hc : GoodRect M c)
include hM hM' ha hc

theorem common_le : commonX a c ≤ 2 * M ∧ commonY a c ≤ 2 * M := by
  have hM0 : 0 < M := lt_of_lt_of_le (by positivity) hM
  have h1 := abs_le.1 ha.usual.xmax.2.1
  have h2 := abs_le.1 ha.usual.xmin.2.1
  have h3 := abs_le.1 ha.usual.ymax.2.1
  have h4 := abs_le.1 ha.usual.ymin.2.1
  have m1 := min_le_left a.xmax c.xmax
  have m2 := le_max_left a.xmin c.xmin
  have m3 := min_le_left a.ymax c.ymax
  have m4 := le_max_left a.ymin c.ymin
  exact ⟨max_le (by linarith) (by linarith [h1.2, h2.1]), max_le (by linarith) (by linarith [h3.2, h4.1])⟩

theorem rect_area {l cl : List (Pt ℚ)} (hl : l ~r rectPts a) (hcl : cl ~r rectPts c) :
    ∃ x, polygonPolygonClipArea (l.map fp) (cl.map fp) = .ok (fin x) ∧ 0 ≤ x ∧
      |x - commonX a c * commonY a c| ≤ rectAcc M a c ∧ (commonX a c = 0 ∨ commonY a c = 0 → x = 0) := by
  have hM0 : 0 < M := lt_of_lt_of_le (by positivity) hM
  have hW : 0 ≤ commonX a c := le_max_left _ _
  have hH : 0 ≤ commonY a c := le_max_left _ _
  obtain ⟨bW, bH⟩ := common_le hM hM' ha hc
  unfold polygonPolygonClipArea rectAcc
  have hd : 0 < M / 2 ^ 44 := by positivity
  have e40 : M / 2 ^ 40 = 16 * (M / 2 ^ 44) := by ring
  have e43 : M / 2 ^ 43 = 2 * (M / 2 ^ 44) := by ring
  rcases rect_clip hM hM' ha hc hl hcl with ⟨e, h⟩ | ⟨l', δ, LL, LR, UR, UL, e, hlen, hδ0, hδt, hδ, hst⟩
  · refine ⟨0, by rw [e]; rfl, le_rfl, ?_, fun _ => rfl⟩
    rw [zero_sub, abs_neg, abs_of_nonneg (mul_nonneg hW hH), e40]
    rw [e43] at h
    generalize M / 2 ^ 44 = d at *
    rcases h with h | h <;> nlinarith
  · have eu : 20 * u * (3 * M) ≤ M / 2 ^ 44 / 8 := by
      have : M / 2 ^ 44 / 8 = 64 * u * M := by unfold u; ring
      rw [this]
      nlinarith [u_pos]
    have hdM : M / 2 ^ 44 ≤ M / 2 := div_le_div_of_nonneg_left hM0.le (by norm_num) (by norm_num)
    rw [e40]
    generalize M / 2 ^ 44 = d at *
    set W := commonX a c with hWd
    set H := commonY a c with hHd
    have pW : 0 < W ∧ W = min a.xmax c.xmax - max a.xmin c.xmin := by
      have : 0 < min a.xmax c.xmax - max a.xmin c.xmin :=
        sub_pos.2 (max_lt (lt_min (lt_of_lt_of_le (lt_add_of_pos_right _ (by positivity)) ha.wide) (hst.pr rfl))
          (lt_min (hst.pl rfl) (lt_of_lt_of_le (lt_add_of_pos_right _ (by positivity)) hc.wide)))
      rw [hWd, commonX, max_eq_right this.le]; exact ⟨this, rfl⟩
    have pH : 0 < H ∧ H = min a.ymax c.ymax - max a.ymin c.ymin := by
      have : 0 < min a.ymax c.ymax - max a.ymin c.ymin :=
        sub_pos.2 (max_lt (lt_min (lt_of_lt_of_le (lt_add_of_pos_right _ (by positivity)) ha.high) (hst.pt rfl))
          (lt_min (hst.pb rfl) (lt_of_lt_of_le (lt_add_of_pos_right _ (by positivity)) hc.high)))
      rw [hHd, commonY, max_eq_right this.le]; exact ⟨this, rfl⟩
    clear_value W H
    have nl := hst.left.near_max hδ0.le
    have nr := hst.right.near_min hδ0.le
    have nb := hst.bottom.near_max hδ0.le
    have nt := hst.top.near_min hδ0.le
    have hδM : δ ≤ M := by linarith
    have bl := hst.left.bound ha.usual.xmin.2.1 hc.usual.xmin.2.1 hδM
    have br := hst.right.bound ha.usual.xmax.2.1 hc.usual.xmax.2.1 hδM
    have bb := hst.bottom.bound ha.usual.ymin.2.1 hc.usual.ymin.2.1 hδM
    have bt := hst.top.bound ha.usual.ymax.2.1 hc.usual.ymax.2.1 hδM
    have hsame := hst.same
    clear hst
    have eX : min a.xmax c.xmax = max a.xmin c.xmin + W := by rw [pW.2]; ring
    have eY : min a.ymax c.ymax = max a.ymin c.ymin + H := by rw [pH.2]; ring
    rw [eX] at nr
    rw [eY] at nt
    generalize max a.xmin c.xmin = X at *
    generalize max a.ymin c.ymin = Y at *
    -- the corners
    have hb : ∀ p ∈ l', |p.x| ≤ 2 * M ∧ |p.y| ≤ 2 * M := by
      intro p hp
      have := hsame.mem p hp
      simp only [List.mem_cons, List.not_mem_nil, or_false] at this
      rcases this with rfl | rfl | rfl | rfl
      · exact ⟨bl.1, bb.1⟩
      · exact ⟨br.1, bb.2⟩
      · exact ⟨br.2, bt.1⟩
      · exact ⟨bl.2, bt.2⟩
    have hbox : ∀ p ∈ l', X - δ ≤ p.x ∧ p.x ≤ X + W + δ ∧ Y - δ ≤ p.y ∧ p.y ≤ Y + H + δ := by
      intro p hp
      have := hsame.mem p hp
      simp only [List.mem_cons, List.not_mem_nil, or_false] at this
      simp only [abs_le] at nl nr nb nt
      rcases this with rfl | rfl | rfl | rfl
      · exact ⟨by linarith [nl.1.1], by linarith [nl.1.2], by linarith [nb.1.1], by linarith [nb.1.2]⟩
      · exact ⟨by linarith [nr.1.1], by linarith [nr.1.2], by linarith [nb.2.1], by linarith [nb.2.2]⟩
      · exact ⟨by linarith [nr.2.1], by linarith [nr.2.2], by linarith [nt.1.1], by linarith [nt.1.2]⟩
      · exact ⟨by linarith [nl.2.1], by linarith [nl.2.2], by linarith [nt.2.1], by linarith [nt.2.2]⟩
    have hdiff : ∀ p ∈ l', ∀ q ∈ l', |p.x - q.x| ≤ W + 2 * δ ∧ |p.y - q.y| ≤ H + 2 * δ := by
      intro p hp q hq
      obtain ⟨p1, p2, p3, p4⟩ := hbox p hp
      obtain ⟨q1, q2, q3, q4⟩ := hbox q hq
      exact ⟨abs_le.2 ⟨by linarith, by linarith⟩, abs_le.2 ⟨by linarith, by linarith⟩⟩
    have hRt : 1 / 2 ^ 300 ≤ W + 2 * δ := hδt.trans (by linarith [pW.1])
    have hSt : 1 / 2 ^ 300 ≤ H + 2 * δ := hδt.trans (by linarith [pH.1])
    obtain ⟨f3, f4⟩ := area_fan hM hM' hRt hSt hb hdiff
    have hRS : 20 * u * ((W + 2 * δ) * (H + 2 * δ)) ≤ d / 8 * (H + 2 * d) := by
      have h1 : 20 * u * ((W + 2 * δ) * (H + 2 * δ)) = 20 * u * (W + 2 * δ) * (H + 2 * δ) := by ring
      rw [h1]
      refine mul_le_mul (le_trans (mul_le_mul_of_nonneg_left ?_ (by linarith [u_pos])) eu) (by linarith) (by linarith [pH.1])
        (by linarith)
      linarith
    have hRS' : (W + 2 * δ) * (H + 2 * δ) ≤ (W + 2 * d) * (H + 2 * d) :=
      mul_le_mul (by linarith) (by linarith) (by linarith [pH.1]) (by linarith [pW.1])
    have hdne : W = 0 ∨ H = 0 → (0 : ℚ) = 1 := by
      rintro (h | h)
      · exact absurd h pW.1.ne'
      · exact absurd h pH.1.ne'
    by_cases hs : 2 * δ < W ∧ 2 * δ < H
    · -- four corners
      have n1 : LL ≠ LR := fun e => by
        have h1 := abs_le.1 nl.1; have h2 := abs_le.1 nr.1; rw [e] at h1; linarith [h1.2, h2.1]
      have n2 : LR ≠ UR := fun e => by
        have h1 := abs_le.1 nb.2; have h2 := abs_le.1 nt.1; rw [e] at h1; linarith [h1.2, h2.1]
      have n3 : UR ≠ UL := fun e => by
        have h1 := abs_le.1 nl.2; have h2 := abs_le.1 nr.2; rw [e] at h2; linarith [h1.2, h2.1]
      have n4 : UL ≠ LL := fun e => by
        have h1 := abs_le.1 nb.1; have h2 := abs_le.1 nt.2; rw [e] at h2; linarith [h1.2, h2.1]
      obtain ⟨p, q, r, s, el, c1, c2⟩ := fan_near hW hH hδ0.le (hsame.all n1 n2 n3 n4) nl.1 nr.1 nr.2 nl.2 nb.1 nb.2 nt.1 nt.2
      obtain ⟨x, ex, hx0, hx⟩ := f4 _ _ _ _ el
      refine ⟨x, by rw [e]; exact ex, hx0, ?_, fun h => absurd (hdne h) (by norm_num)⟩
      have hE : 4 * δ * (W + H + 2 * δ) ≤ 4 * d * (W + H + 2 * d) :=
        mul_le_mul (by linarith) (by linarith) (by linarith) (by linarith)
      have hx' := hx.trans hRS
      have c1' := c1.trans hE
      have c2' := c2.trans hE
      exact near_area hW hH hd hx' c1' c2'
    · -- almost nothing
      have small : ∀ x : ℚ, 0 ≤ x → x ≤ 2 * ((W + 2 * δ) * (H + 2 * δ)) + 20 * u * ((W + 2 * δ) * (H + 2 * δ)) →
          |x - W * H| ≤ 16 * d * (W + H + 16 * d) := by
        intro x hx0 hx
        have h1 : x ≤ 2 * ((W + 2 * d) * (H + 2 * d)) + d / 8 * (H + 2 * d) := by linarith
        have h2 : W ≤ 2 * d ∨ H ≤ 2 * d := by
          by_contra hno; push Not at hno
          exact hs ⟨by linarith [hno.1], by linarith [hno.2]⟩
        exact small_area hW hH hd hx0 h1 h2
      have tri : ∀ ux uy vx vy : ℚ, |ux| ≤ W + 2 * δ → |vx| ≤ W + 2 * δ → |uy| ≤ H + 2 * δ → |vy| ≤ H + 2 * δ →
          |ux * vy - uy * vx| ≤ 2 * ((W + 2 * δ) * (H + 2 * δ)) := by
        intro ux uy vx vy h1 h2 h3 h4
        have b1 : |ux * vy| ≤ (W + 2 * δ) * (H + 2 * δ) := by
          rw [abs_mul]; exact mul_le_mul h1 h4 (abs_nonneg _) (by linarith)
        have b2 : |uy * vx| ≤ (W + 2 * δ) * (H + 2 * δ) := by
          rw [abs_mul, mul_comm (W + 2 * δ)]; exact mul_le_mul h3 h2 (abs_nonneg _) (by linarith)
        exact (abs_sub _ _).trans (by linarith)
      have hl4 := hsame.len
      rcases three_or_four hlen hl4 with ⟨p, q, r, el⟩ | ⟨p, q, r, s, el⟩
      · obtain ⟨x, ex, hx0, hx⟩ := f3 _ _ _ el
        rw [el] at hdiff
        refine ⟨x, by rw [e]; exact ex, hx0, small x hx0 ?_, fun h => absurd (hdne h) (by norm_num)⟩
        have d1 := hdiff q (by simp) p (by simp)
        have d2 := hdiff p (by simp) r (by simp)
        have t1 := tri _ _ _ _ d1.1 d2.1 d1.2 d2.2
        have := (abs_le.1 hx).2
        linarith [abs_nonneg ((q.x - p.x) * (p.y - r.y) - (q.y - p.y) * (p.x - r.x))]
      · obtain ⟨x, ex, hx0, hx⟩ := f4 _ _ _ _ el
        rw [el] at hdiff
        refine ⟨x, by rw [e]; exact ex, hx0, small x hx0 ?_, fun h => absurd (hdne h) (by norm_num)⟩
        have d1 := hdiff q (by simp) p (by simp)
        have d2 := hdiff p (by simp) r (by simp)
        have d3 := hdiff p (by simp) s (by simp)
        have t1 := tri _ _ _ _ d1.1 d2.1 d1.2 d2.2
        have t2 := tri _ _ _ _ d2.1 d3.1 d2.2 d3.2
        have := (abs_le.1 hx).2
        linarith

end

end Celltree.Fl
