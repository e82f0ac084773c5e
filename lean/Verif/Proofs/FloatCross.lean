import Verif.Proofs.FloatPiece
import Verif.Proofs.FloatSides
import Verif.Proofs.FloatEdges
import Verif.Proofs.Lines
import Verif.Spec.FloatCross

/-!
# Crossing segments in binary64
-/

set_option linter.unusedSectionVars false

namespace Celltree.Fl

/-- Cross product of two vectors with rounded components. -/
theorem crossGen_fl {dx dy ex ey : ℚ} (h1 : |rq dx| ≤ 2 ^ 201) (h2 : |rq dy| ≤ 2 ^ 201) (h3 : |rq ex| ≤ 2 ^ 201)
    (h4 : |rq ey| ≤ 2 ^ 201) :
    cross (⟨fin (rq dx), fin (rq dy)⟩ : Pt Fl) ⟨fin (rq ex), fin (rq ey)⟩ = fin (crossR dx dy ex ey) ∧
      |crossR dx dy ex ey| ≤ 2 ^ 403 := by
  obtain ⟨m1, n1⟩ := fin_mul_diff h1 h4
  obtain ⟨m2, n2⟩ := fin_mul_diff h2 h3
  have hs := abs_sub_le_pow n1 n2
  unfold cross
  simp only
  rw [m1, m2, sub_fin (k := 403) (by norm_num) hs]
  exact ⟨rfl, abs_rq_le hs⟩

theorem lsq_fl {dx dy : ℚ} (h1 : |rq dx| ≤ 2 ^ 201) (h2 : |rq dy| ≤ 2 ^ 201) :
    lengthSquared (⟨fin (rq dx), fin (rq dy)⟩ : Pt Fl) = fin (lsqR dx dy) ∧ |lsqR dx dy| ≤ 2 ^ 403 := by
  obtain ⟨m1, n1⟩ := fin_mul_diff h1 h1
  obtain ⟨m2, n2⟩ := fin_mul_diff h2 h2
  have hs := abs_add_le_pow n1 n2
  unfold lengthSquared
  simp only
  rw [m1, m2, add_fin (k := 403) (by norm_num) hs]
  exact ⟨rfl, abs_rq_le hs⟩

/-- The computed side of `x` with respect to the line from `p` in the direction `q`. -/
def leftR (x p q : Pt ℚ) : Bool := decide (rq (rq (q.y - p.y) * rq (x.x - p.x)) < rq (rq (q.x - p.x) * rq (x.y - p.y)))

/-- The computed test for small distance to the line of `a b`. -/
def closeR (C tl : ℚ) (a b : Pt ℚ) : Bool := decide (rq (C * C) < rq (rq (tl * lsqR (b.x - a.x) (b.y - a.y)) * tl))

theorem within_fl {C tl : ℚ} {a b : Pt ℚ} (ha : ModPt a) (hb : ModPt b) (hC : |C| ≤ 2 ^ 403) (ht : |tl| ≤ 2 ^ 201) :
    withinPerpendicularDistance (fin C) (⟨fin (rq (b.x - a.x)), fin (rq (b.y - a.y))⟩ : Pt Fl) (fin tl) = closeR C tl a b := by
  obtain ⟨l1, l2⟩ := lsq_fl (hb.1.sub ha.1).2 (hb.2.sub ha.2).2
  have c1 := abs_mul_le_pow hC hC
  have c2 := abs_mul_le_pow ht l2
  have c3 := abs_mul_le_pow (abs_rq_le c2) ht
  unfold withinPerpendicularDistance
  rw [l1, mul_fin (k := 806) (by norm_num) c1, mul_fin (k := 604) (by norm_num) c2, mul_fin (k := 805) (by norm_num) c3]
  simp only [lt_fin, closeR]

theorem leftOf_fl {x p : Pt ℚ} (hx : ModPt x) (hp : ModPt p) {q : Pt ℚ} (hq : ModPt q) :
    leftOf (fp x) (fp p) (⟨fin (rq (q.x - p.x)), fin (rq (q.y - p.y))⟩ : Pt Fl) = leftR x p q := by
  obtain ⟨s1, b1⟩ := hx.1.sub hp.1
  obtain ⟨s2, b2⟩ := hx.2.sub hp.2
  obtain ⟨m1, _⟩ := fin_mul_diff (hq.1.sub hp.1).2 b2
  obtain ⟨m2, _⟩ := fin_mul_diff (hq.2.sub hp.2).2 b1
  unfold leftOf fp leftR
  simp only
  rw [s1, s2, m1, m2]
  simp only [gt_iff_lt, lt_fin]

/-- The side of a point that is clearly on one side. -/
theorem left_sign {dx dy wx wy R : ℚ} (h1 : |dx| ≤ R) (h2 : |dy| ≤ R) (h3 : |wx| ≤ R) (h4 : |wy| ≤ R) (hR : 1 / 2 ^ 500 ≤ R)
    (h : 8 * u * (R * R) ≤ |dx * wy - dy * wx|) :
    rq (rq dy * rq wx) < rq (rq dx * rq wy) ↔ 0 < dx * wy - dy * wx := by
  have e1 := abs_le.1 (mul_err h1 h4 hR hR)
  have e2 := abs_le.1 (mul_err h2 h3 hR hR)
  have hR0 : 0 < R := lt_of_lt_of_le (by positivity) hR
  have hu := mul_pos u_pos (mul_pos hR0 hR0)
  set A := rq (rq dx * rq wy)
  set B := rq (rq dy * rq wx)
  have k : (301 / 100 : ℚ) * u * (R * R) = 301 / 100 * (u * (R * R)) := by ring
  have k' : 8 * u * (R * R) = 8 * (u * (R * R)) := by ring
  rw [k] at e1 e2
  rw [k'] at h
  constructor
  · intro hAB
    by_contra hn
    push Not at hn
    rw [abs_of_nonpos hn] at h
    linarith [e1.1, e1.2, e2.1, e2.2]
  · intro hp
    rw [abs_of_pos hp] at h
    linarith [e1.1, e1.2, e2.1, e2.2]

/-- The tolerance for a segment. -/
def tolR (m f : ℚ) (p q : Pt ℚ) : ℚ := max m (rq (f * max |rq (q.x - p.x)| |rq (q.y - p.y)|))

section
variable {env : Env Fl} {m f : ℚ} (hT : Tols env m f) {p q : Pt ℚ} (hp : ModPt p) (hq : ModPt q)
include hT hp hq

theorem tol_fl : fmax env.minTol (env.tolFactor * fmax (fabs (fin (rq (q.x - p.x)))) (fabs (fin (rq (q.y - p.y))))) =
    fin (tolR m f p q) ∧ m ≤ tolR m f p q ∧ |tolR m f p q| ≤ 2 ^ 201 := by
  obtain ⟨_, b1⟩ := hq.1.sub hp.1
  obtain ⟨_, b2⟩ := hq.2.sub hp.2
  rw [fabs_fin, fabs_fin, fmax_fin, hT.min_eq, hT.factor_eq]
  have hb : abs (max (abs (rq (q.x - p.x))) (abs (rq (q.y - p.y)))) ≤ 2 ^ 201 := by
    rw [abs_of_nonneg (le_max_of_le_left (abs_nonneg _))]
    exact max_le b1 b2
  have hf : abs (f * max (abs (rq (q.x - p.x))) (abs (rq (q.y - p.y)))) ≤ 2 ^ 201 := by
    rw [abs_mul, abs_of_nonneg hT.f_nonneg]
    calc f * _ ≤ 1 * 2 ^ 201 := mul_le_mul hT.f_le hb (abs_nonneg _) (by norm_num)
      _ = _ := one_mul _
  rw [mul_fin (k := 201) (by norm_num) hf, fmax_fin]
  have hm0 : 0 < m := lt_of_lt_of_le (by positivity) hT.m_ge
  refine ⟨rfl, le_max_left _ _, ?_⟩
  unfold tolR
  rw [abs_of_nonneg (le_max_of_le_left hm0.le)]
  refine max_le (hT.m_le.trans (pow_le_pow_right₀ (by norm_num) (by norm_num))) ((le_abs_self _).trans (abs_rq_le hf))

end

/-- A chain of tests as one condition. -/
theorem guard_chain {α : Type} {qx qy bx by' ax ay ox oy G : Prop} [Decidable qx] [Decidable qy] [Decidable bx] [Decidable by']
    [Decidable ax] [Decidable ay] [Decidable ox] [Decidable oy] [Decidable G]
    (hG : G ↔ ¬ (bx ∧ by') ∧ ¬ (qx ∧ qy) ∧ (qx → bx → ax) ∧ (qy → by' → ay) ∧ ox ∧ oy) (l1 l2 l3 l4 c1 c2 : Bool) (N X Y : α) :
    (if (decide qx && decide qy || decide bx && decide by') = true then N
      else if (decide qx && decide bx && !decide ax) = true then N
      else if (decide qy && decide by' && !decide ay) = true then N
      else if (!decide ox || !decide oy) = true then N
      else if (l1 != l2 && l3 != l4) = true then X
      else if (c1 && c2) = true then Y
      else N) =
    if G then if l1 ≠ l2 ∧ l3 ≠ l4 then X else if c1 = true ∧ c2 = true then Y else N else N := by
  simp only [Bool.or_eq_true, Bool.and_eq_true, decide_eq_true_eq, Bool.not_eq_true', decide_eq_false_iff_not, bne_iff_ne]
  by_cases h1 : qx ∧ qy ∨ bx ∧ by'
  · rw [if_pos h1, if_neg]
    rw [hG]
    exact fun h => h1.elim h.2.1 h.1
  rw [if_neg h1]
  by_cases h2 : (qx ∧ bx) ∧ ¬ ax
  · rw [if_pos h2, if_neg]
    rw [hG]
    exact fun h => h2.2 (h.2.2.1 h2.1.1 h2.1.2)
  rw [if_neg h2]
  by_cases h3 : (qy ∧ by') ∧ ¬ ay
  · rw [if_pos h3, if_neg]
    rw [hG]
    exact fun h => h3.2 (h.2.2.2.1 h3.1.1 h3.1.2)
  rw [if_neg h3]
  by_cases h4 : ¬ ox ∨ ¬ oy
  · rw [if_pos h4, if_neg]
    rw [hG]
    exact fun h => h4.elim (fun g => g h.2.2.2.2.1) (fun g => g h.2.2.2.2.2)
  rw [if_neg h4, if_pos (hG.2 ⟨fun h => h1 (.inr h), fun h => h1 (.inl h), fun g1 g2 => by_contra fun g => h2 ⟨⟨g1, g2⟩, g⟩,
    fun g1 g2 => by_contra fun g => h3 ⟨⟨g1, g2⟩, g⟩, by_contra fun g => h4 (.inl g), by_contra fun g => h4 (.inr g)⟩)]

/-- The conditions that are tested before the sides. -/
def GuardR (tl : ℚ) (a b p q : Pt ℚ) : Prop :=
  a ≠ b ∧ p ≠ q ∧ (p.x = q.x → a.x = b.x → a.x = p.x) ∧ (p.y = q.y → a.y = b.y → a.y = p.y) ∧
    (rq (min a.x b.x - max p.x q.x) < tl ∧ rq (min p.x q.x - max a.x b.x) < tl) ∧
    rq (min a.y b.y - max p.y q.y) < tl ∧ rq (min p.y q.y - max a.y b.y) < tl

instance (tl : ℚ) (a b p q : Pt ℚ) : Decidable (GuardR tl a b p q) := by unfold GuardR; infer_instance

theorem mod_min {x y : ℚ} (hx : Mod x) (hy : Mod y) : Mod (min x y) := by
  rcases min_choice x y with h | h <;> rw [h] <;> assumption

theorem mod_max {x y : ℚ} (hx : Mod x) (hy : Mod y) : Mod (max x y) := by
  rcases max_choice x y with h | h <;> rw [h] <;> assumption

theorem hasOverlap_fl {a b p q tl : ℚ} (ha : Mod a) (hb : Mod b) (hp : Mod p) (hq : Mod q) :
    hasOverlap (fin a) (fin b) (fin p) (fin q) (fin tl) =
      decide (rq (min a b - max p q) < tl ∧ rq (min p q - max a b) < tl) := by
  unfold hasOverlap
  rw [fmin_fin, fmax_fin, fmin_fin, fmax_fin, ((mod_min ha hb).sub (mod_max hp hq)).1, ((mod_min hp hq).sub (mod_max ha hb)).1]
  simp only [lt_fin, Bool.decide_and]

section
variable {env : Env Fl} {m f : ℚ} (hT : Tols env m f) {a b p q : Pt ℚ} (ha : ModPt a) (hb : ModPt b) (hp : ModPt p)
  (hq : ModPt q)
include hT ha hb hp hq

theorem vec_bnd {x y : Pt ℚ} (hx : ModPt x) (hy : ModPt y) : |rq (y.x - x.x)| ≤ 2 ^ 201 ∧ |rq (y.y - x.y)| ≤ 2 ^ 201 :=
  ⟨(hy.1.sub hx.1).2, (hy.2.sub hx.2).2⟩

/-- `lines_intersect` in binary64. -/
theorem linesIntersect_flEq : linesIntersect env (fp a) (fp b) (fp p) (fp q) =
    if GuardR (tolR m f p q) a b p q then
      if leftR a p q ≠ leftR b p q ∧ leftR p a b ≠ leftR q a b then do
        let xy ← intersectionLocationPoint ⟨fin (rq (b.x - a.x)), fin (rq (b.y - a.y))⟩ ⟨fin (rq (q.x - p.x)), fin (rq (q.y - p.y))⟩
          (fp a) (fp p) (fin (tolR m f p q))
        .ok (true, xy)
      else if closeR (crossR (b.x - a.x) (b.y - a.y) (p.x - a.x) (p.y - a.y)) (tolR m f p q) a b ∧
          closeR (crossR (b.x - a.x) (b.y - a.y) (q.x - a.x) (q.y - a.y)) (tolR m f p q) a b then
        .ok (true, midpointCollinearLines (fp a) (fp b) (fp p) (fp q))
      else .ok (false, none)
    else .ok (false, none) := by
  obtain ⟨t1, t2, t3⟩ := tol_fl hT hp hq
  obtain ⟨v1, v2⟩ := vec_bnd hT ha hb hp hq ha hb
  obtain ⟨u1, u2⟩ := vec_bnd hT ha hb hp hq hp hq
  obtain ⟨r1, r2⟩ := vec_bnd hT ha hb hp hq ha hp
  obtain ⟨s1, s2⟩ := vec_bnd hT ha hb hp hq ha hq
  unfold linesIntersect
  rw [toVector_fin ha hb, toVector_fin hp hq, toVector_fin ha hp, toVector_fin ha hq]
  simp only
  rw [t1, leftOf_fl ha hp hq, leftOf_fl hb hp hq, leftOf_fl hp ha hb, leftOf_fl hq ha hb,
    (crossGen_fl v1 v2 r1 r2).1, (crossGen_fl v1 v2 s1 s2).1, within_fl ha hb (crossGen_fl v1 v2 r1 r2).2 t3,
    within_fl ha hb (crossGen_fl v1 v2 s1 s2).2 t3]
  simp only [beq_fin_zero, fp, beq_fin, rq_sub_zero_iff hq.1.1 hp.1.1, rq_sub_zero_iff hq.2.1 hp.2.1,
    rq_sub_zero_iff hb.1.1 ha.1.1, rq_sub_zero_iff hb.2.1 ha.2.1, hasOverlap_fl ha.1 hb.1 hp.1 hq.1,
    hasOverlap_fl ha.2 hb.2 hp.2 hq.2]
  refine guard_chain ?_ _ _ _ _ _ _ _ _ _
  have hpq : (p = q ↔ q.x = p.x ∧ q.y = p.y) := ⟨fun h => h ▸ ⟨rfl, rfl⟩, fun h => (Pt.ext' h.1 h.2).symm⟩
  have hab : (a = b ↔ b.x = a.x ∧ b.y = a.y) := ⟨fun h => h ▸ ⟨rfl, rfl⟩, fun h => (Pt.ext' h.1 h.2).symm⟩
  unfold GuardR
  rw [ne_eq, ne_eq, hpq, hab, eq_comm (a := p.x) (b := q.x), eq_comm (a := p.y) (b := q.y), eq_comm (a := a.x) (b := b.x),
    eq_comm (a := a.y) (b := b.y)]

theorem location_flEq : intersectionLocationPoint (⟨fin (rq (b.x - a.x)), fin (rq (b.y - a.y))⟩ : Pt Fl)
      ⟨fin (rq (q.x - p.x)), fin (rq (q.y - p.y))⟩ (fp a) (fp p) (fin (tolR m f p q)) =
    if closeR (crossR (b.x - a.x) (b.y - a.y) (q.x - p.x) (q.y - p.y)) (tolR m f p q) a b then .ok none
    else fdiv (fin (crossR (p.x - a.x) (p.y - a.y) (q.x - p.x) (q.y - p.y)))
        (fin (crossR (b.x - a.x) (b.y - a.y) (q.x - p.x) (q.y - p.y))) >>= fun t =>
      .ok (some (toPoint t (fp a) (toVector (fp a) (fp b)))) := by
  obtain ⟨_, _, t3⟩ := tol_fl hT hp hq
  obtain ⟨v1, v2⟩ := vec_bnd hT ha hb hp hq ha hb
  obtain ⟨u1, u2⟩ := vec_bnd hT ha hb hp hq hp hq
  obtain ⟨r1, r2⟩ := vec_bnd hT ha hb hp hq ha hp
  unfold intersectionLocationPoint
  rw [toVector_fin ha hp]
  simp only
  rw [(crossGen_fl v1 v2 u1 u2).1, (crossGen_fl r1 r2 u1 u2).1, within_fl ha hb (crossGen_fl v1 v2 u1 u2).2 t3, toVector_fin ha hb]
  rfl

end

theorem lsqR_pos {dx dy : ℚ} (h : 1 / 2 ^ 200 ≤ |dx| ∨ 1 / 2 ^ 200 ≤ |dy|) : 1 / 2 ^ 400 ≤ lsqR dx dy := by
  have key : ∀ x : ℚ, 1 / 2 ^ 200 ≤ |x| → 1 / 2 ^ 400 ≤ rq (rq x * rq x) := by
    intro x hx
    have h1 := le_abs_rq (by norm_num) hx
    have h2 : 1 / 2 ^ (200 + 200) ≤ |rq x| * |rq x| := inv_pow_mul h1 h1
    rw [abs_mul_abs_self] at h2
    exact le_rq (isRep_two_pow_inv (by norm_num)) h2
  have nn : ∀ x : ℚ, 0 ≤ rq (rq x * rq x) := fun x => rq_nonneg (mul_self_nonneg _)
  unfold lsqR
  refine le_rq (isRep_two_pow_inv (by norm_num)) ?_
  rcases h with h | h
  · have := key _ h
    linarith [nn dy]
  · have := key _ h
    linarith [nn dx]

theorem apart_abs {M x y : ℚ} (hx : Usual M x) (hy : Usual M y) (h : x ≠ y) : 1 / 2 ^ 200 ≤ |y - x| := by
  rcases lt_or_gt_of_ne h with h | h
  · exact (hx.apart hy h).trans (le_abs_self _)
  · have := hy.apart hx h
    rw [abs_sub_comm]
    exact this.trans (le_abs_self _)

section
variable {env : Env Fl} {m f M : ℚ} (hT : Tols env m f) (hM' : M ≤ 2 ^ 199) {a b p q : Pt ℚ} (ha : UsualPt M a)
  (hb : UsualPt M b) (hp : UsualPt M p) (hq : UsualPt M q)
include hT hM' ha hb hp hq

/-- `lines_intersect` never raises. -/
theorem linesIntersect_total : ∃ r, linesIntersect env (fp a) (fp b) (fp p) (fp q) = .ok r := by
  have ma := ha.mod hM'
  have mb := hb.mod hM'
  have mp := hp.mod hM'
  have mq := hq.mod hM'
  rw [linesIntersect_flEq hT ma mb mp mq]
  split_ifs with h1 h2 h3
  · rw [location_flEq hT ma mb mp mq]
    split_ifs with h4
    · exact ⟨_, rfl⟩
    · have hne : crossR (b.x - a.x) (b.y - a.y) (q.x - p.x) (q.y - p.y) ≠ 0 := by
        intro h0
        apply h4
        rw [h0]
        unfold closeR
        rw [decide_eq_true_eq, mul_zero, rq_zero]
        have hL : 1 / 2 ^ 400 ≤ lsqR (b.x - a.x) (b.y - a.y) := by
          apply lsqR_pos
          by_cases hx : a.x = b.x
          · right
            exact apart_abs ha.2 hb.2 fun hy => h1.1 (Pt.ext' hx hy)
          · left
            exact apart_abs ha.1 hb.1 hx
        have ht : 1 / 2 ^ 100 ≤ tolR m f p q := hT.m_ge.trans (le_max_left _ _)
        have e1 : 1 / 2 ^ (100 + 400) ≤ rq (tolR m f p q * lsqR (b.x - a.x) (b.y - a.y)) :=
          le_rq (isRep_two_pow_inv (by norm_num)) (inv_pow_mul ht hL)
        have e2 : 1 / 2 ^ (100 + 400 + 100) ≤ rq (rq (tolR m f p q * lsqR (b.x - a.x) (b.y - a.y)) * tolR m f p q) :=
          le_rq (isRep_two_pow_inv (by norm_num)) (inv_pow_mul e1 ht)
        exact lt_of_lt_of_le (by positivity) e2
      rw [fdiv_eq_fl hne]
      exact ⟨_, rfl⟩
  · exact ⟨_, rfl⟩
  · exact ⟨_, rfl⟩
  · exact ⟨_, rfl⟩

end

/-- The computed coordinate of a parameter that may be slightly outside the segment. -/
theorem toCoord_fl2 {M x y τ : ℚ} (hM : 1 / 2 ^ 100 ≤ M) (hM' : M ≤ 2 ^ 199) (hx : |x| ≤ M) (hy : |y| ≤ M) (hτ : |τ| ≤ 2) :
    ∃ p, fin x + fin τ * fin (rq (y - x)) = fin p ∧ |p - (x + τ * (y - x))| ≤ 2 * M / 2 ^ 49 := by
  have hM0 : 0 < M := lt_of_lt_of_le (by positivity) hM
  have hu := u_pos
  have he : eta ≤ u * M := by
    have : eta = 1 / 2 ^ 975 * (1 / 2 ^ 100) := by
      unfold eta; rw [div_mul_div_comm, one_mul, ← pow_add]
    rw [this]
    refine mul_le_mul ?_ hM (by positivity) hu.le
    unfold u
    exact inv_pow_le (by norm_num)
  have p200 : M ≤ 2 ^ 200 := hM'.trans (pow_le_pow_right₀ (by norm_num) (by norm_num))
  have d0 : |y - x| ≤ 2 * M := (abs_sub _ _).trans (by linarith)
  have b1 : |y - x| ≤ 2 ^ (200 + 1) := abs_sub_le_pow (hy.trans p200) (hx.trans p200)
  have b2 := abs_rq_le b1
  have hp2 : (2:ℚ) ^ 202 = 2 * 2 ^ 201 := by rw [pow_succ]; ring
  have hp3 : (2:ℚ) ^ 203 = 2 ^ 202 + 2 ^ 202 := by rw [pow_succ]; ring
  have b3 : |τ * rq (y - x)| ≤ 2 ^ 202 := by
    rw [abs_mul, hp2]
    exact mul_le_mul hτ b2 (abs_nonneg _) (by norm_num)
  have b4 := abs_rq_le b3
  have b5 : |x + rq (τ * rq (y - x))| ≤ 2 ^ 203 := by
    refine (abs_add_le _ _).trans ?_
    have h2 : (2:ℚ) ^ 200 ≤ 2 ^ 202 := pow_le_pow_right₀ (by norm_num) (by norm_num)
    rw [hp3]
    exact add_le_add ((hx.trans p200).trans h2) b4
  refine ⟨rq (x + rq (τ * rq (y - x))), ?_, ?_⟩
  · rw [mul_fin (k := 202) (by norm_num) b3, add_fin (k := 203) (by norm_num) b5]
  · have r1 := rq_err_add (y - x)
    have r2 := rq_err_add (τ * rq (y - x))
    have r3 := rq_err_add (x + rq (τ * rq (y - x)))
    clear b1 b2 b3 b4 b5 hp2 hp3 p200 hM'
    set A := rq (y - x)
    set B := rq (τ * A)
    have hu1 : u ≤ 1 / 64 := by unfold u; norm_num
    have huM : u * M ≤ 1 / 64 * M := mul_le_mul_of_nonneg_right hu1 hM0.le
    have s1 : |A - (y - x)| ≤ 3 * (u * M) := by
      have := mul_le_mul_of_nonneg_left d0 hu.le
      linarith
    have s2 : |A| ≤ 3 * M := by
      calc |A| = |(A - (y - x)) + (y - x)| := by ring_nf
        _ ≤ _ := (abs_add_le _ _).trans (by linarith)
    have s3 : |τ * A| ≤ 6 * M := by
      rw [abs_mul]
      calc |τ| * |A| ≤ 2 * (3 * M) := mul_le_mul hτ s2 (abs_nonneg _) (by norm_num)
        _ = _ := by ring
    have s4 : |B - τ * A| ≤ 7 * (u * M) := by
      have := mul_le_mul_of_nonneg_left s3 hu.le
      linarith
    have s5 : |x + B| ≤ 8 * M := by
      calc |x + B| = |x + (B - τ * A) + τ * A| := by ring_nf
        _ ≤ |x| + |B - τ * A| + |τ * A| := (abs_add_le _ _).trans (by linarith [abs_add_le x (B - τ * A)])
        _ ≤ _ := by linarith
    have s6 : |rq (x + B) - (x + B)| ≤ 9 * (u * M) := by
      have := mul_le_mul_of_nonneg_left s5 hu.le
      linarith
    have s7 : |τ * (A - (y - x))| ≤ 6 * (u * M) := by
      rw [abs_mul]
      calc |τ| * |A - (y - x)| ≤ 2 * (3 * (u * M)) := mul_le_mul hτ s1 (abs_nonneg _) (by norm_num)
        _ = _ := by ring
    have e16 : 2 * M / 2 ^ 49 = 32 * (u * M) := by unfold u; ring
    rw [e16]
    have huM0 : 0 < u * M := mul_pos hu hM0
    calc |rq (x + B) - (x + τ * (y - x))| = |(rq (x + B) - (x + B)) + (B - τ * A) + τ * (A - (y - x))| := by ring_nf
      _ ≤ _ := (abs_add_le _ _).trans (by linarith [abs_add_le (rq (x + B) - (x + B)) (B - τ * A)])

/-- The computed point of such a parameter. -/
theorem toPoint_fl2 {M θ E τ t : ℚ} {a b : Pt ℚ} (hM : 1 / 2 ^ 100 ≤ M) (hM' : M ≤ 2 ^ 199) (ma : ModPt a) (mb : ModPt b)
    (ba : Bnd M a) (bb : Bnd M b) (hE : |b.x - a.x| ≤ E ∧ |b.y - a.y| ≤ E) (hτ : |τ| ≤ 2) (hθ : |τ - t| ≤ θ) :
    ∃ p, toPoint (fin τ) (fp a) (toVector (fp a) (fp b)) = fp p ∧ Within (θ * E + 2 * M / 2 ^ 49) p (lineAt a b t) := by
  obtain ⟨px, e1, f1⟩ := toCoord_fl2 hM hM' ba.1 bb.1 hτ
  obtain ⟨py, e2, f2⟩ := toCoord_fl2 hM hM' ba.2 bb.2 hτ
  refine ⟨⟨px, py⟩, ?_, ?_, ?_⟩
  · rw [toVector_fin ma mb]
    unfold toPoint
    show (⟨fin a.x + fin τ * fin (rq (b.x - a.x)), fin a.y + fin τ * fin (rq (b.y - a.y))⟩ : Pt Fl) = _
    rw [e1, e2]; rfl
  · have : |(τ - t) * (b.x - a.x)| ≤ θ * E := by
      rw [abs_mul]; exact mul_le_mul hθ hE.1 (abs_nonneg _) ((abs_nonneg _).trans hθ)
    calc |px - (lineAt a b t).x| = |(px - (a.x + τ * (b.x - a.x))) + (τ - t) * (b.x - a.x)| := by
          unfold lineAt; simp only; ring_nf
      _ ≤ _ := (abs_add_le _ _).trans (by linarith)
  · have : |(τ - t) * (b.y - a.y)| ≤ θ * E := by
      rw [abs_mul]; exact mul_le_mul hθ hE.2 (abs_nonneg _) ((abs_nonneg _).trans hθ)
    calc |py - (lineAt a b t).y| = |(py - (a.y + τ * (b.y - a.y))) + (τ - t) * (b.y - a.y)| := by
          unfold lineAt; simp only; ring_nf
      _ ≤ _ := (abs_add_le _ _).trans (by linarith)

section
variable {env : Env Fl} {m f E ρ : ℚ} (hT : Tols env m f) {a b p q : Pt ℚ} (hc : CrossClear m f E ρ a b p q)
include hT hc

theorem CrossClear.rho_pos : 0 < ρ := lt_of_lt_of_le (by positivity) hc.rho.1

theorem CrossClear.rhoE : 1 / 2 ^ 98 ≤ ρ * E := by
  have h1 := hc.tol.1
  have h2 := hT.m_ge
  have : (1:ℚ) / 2 ^ 98 = 4 * (1 / 2 ^ 100) := by norm_num
  rw [this]
  linarith

theorem CrossClear.E_pos : 0 < E := by
  have h1 := hc.rhoE hT
  have h2 := hc.rho_pos hT
  by_contra h
  push Not at h
  have := mul_nonpos_of_nonneg_of_nonpos h2.le h
  have h3 : (0:ℚ) < 1 / 2 ^ 98 := by positivity
  linarith

theorem CrossClear.E_ge : 1 / 2 ^ 98 ≤ E := by
  have h1 := hc.rhoE hT
  have h2 := mul_le_mul_of_nonneg_right hc.rho.2 (hc.E_pos hT).le
  linarith

theorem CrossClear.u_rho : 1024 * u ≤ ρ := by
  refine le_trans (le_of_eq ?_) hc.rho.1
  unfold u; norm_num

theorem CrossClear.bound {v w : Pt ℚ} (hv : v ∈ [a, b, p, q]) (hw : w ∈ [a, b, p, q]) :
    |v.x - w.x| ≤ 2 * E ∧ |v.y - w.y| ≤ 2 * E := by
  have hE := hc.E_pos hT
  have key : ∀ v ∈ [a, b, p, q], |v.x - a.x| ≤ E ∧ |v.y - a.y| ≤ E := by
    intro v hv
    rcases List.mem_cons.1 hv with rfl | hv
    · simp only [sub_self, abs_zero]; exact ⟨hE.le, hE.le⟩
    · exact hc.size v hv
  have bd : ∀ x y z : ℚ, |x - z| ≤ E → |y - z| ≤ E → |x - y| ≤ 2 * E := by
    intro x y z h1 h2
    calc |x - y| = |(x - z) - (y - z)| := by ring_nf
      _ ≤ |x - z| + |y - z| := abs_sub _ _
      _ ≤ 2 * E := by linarith
  exact ⟨bd _ _ _ (key v hv).1 (key w hw).1, bd _ _ _ (key v hv).2 (key w hw).2⟩

theorem CrossClear.E2 : 1 / 2 ^ 500 ≤ 2 * E := by
  have h1 := hc.E_ge hT
  have h2 : (1:ℚ) / 2 ^ 500 ≤ 1 / 2 ^ 98 := inv_pow_le (by norm_num)
  have := hc.E_pos hT
  linarith

/-- The computed sides are the sides. -/
theorem CrossClear.left {v w x : Pt ℚ} (hv : v ∈ [a, b, p, q]) (hw : w ∈ [a, b, p, q]) (hx : x ∈ [a, b, p, q])
    (ho : ρ * E ^ 2 ≤ |orient v w x|) : leftR x v w = decide (0 < orient v w x) := by
  have b1 := hc.bound hT hw hv
  have b2 := hc.bound hT hx hv
  have hu := hc.u_rho hT
  have hE := hc.E_pos hT
  unfold leftR
  rw [decide_eq_decide]
  have e : (w.x - v.x) * (x.y - v.y) - (w.y - v.y) * (x.x - v.x) = orient v w x := by unfold orient; ring
  rw [left_sign b1.1 b1.2 b2.1 b2.2 (hc.E2 hT) ?_, e]
  rw [e]
  refine le_trans ?_ ho
  have hEE : 0 < E * E := mul_pos hE hE
  have h1 : u * (E * E) * 1024 ≤ ρ * (E * E) := by
    have := mul_le_mul_of_nonneg_right hu hEE.le
    linarith
  have h2 := mul_pos u_pos hEE
  have : ρ * E ^ 2 = ρ * (E * E) := by ring
  rw [this]
  linarith

theorem CrossClear.tol_le (mp : ModPt p) (mq : ModPt q) : tolR m f p q ≤ ρ * E / 4 := by
  have hE := hc.E_pos hT
  have hρ := hc.rho_pos hT
  have hρE := hc.rhoE hT
  have b := hc.bound hT (v := q) (w := p) (by simp) (by simp)
  unfold tolR
  refine max_le (by linarith [hc.tol.1]) ?_
  have hb : ∀ x : ℚ, |x| ≤ 2 * E → |rq x| ≤ 202 / 100 * E := by
    intro x hx
    rw [abs_rq]
    have : 1 / 2 ^ 98 ≤ 2 * E := by linarith [hc.E_ge hT]
    have := rq_upper (k := 98) (by norm_num) this hx
    linarith
  have hmx : max (abs (rq (q.x - p.x))) (abs (rq (q.y - p.y))) ≤ 202 / 100 * E := max_le (hb _ b.1) (hb _ b.2)
  set mx := max (abs (rq (q.x - p.x))) (abs (rq (q.y - p.y)))
  have h1 : f * mx ≤ 203 / 900 * (ρ * E) := by
    have h2 := mul_le_mul_of_nonneg_left hmx hT.f_nonneg
    have h3 := mul_le_mul_of_nonneg_right hc.tol.2 hE.le
    nlinarith
  have h4 : 1 / 2 ^ (98 + 3) ≤ 203 / 900 * (ρ * E) := by
    have : (1:ℚ) / 2 ^ (98 + 3) = 1 / 8 * (1 / 2 ^ 98) := by norm_num
    rw [this]
    linarith
  have h5 := rq_upper (by norm_num) h4 h1
  have : 0 < ρ * E := mul_pos hρ hE
  linarith

/-- A clearly large cross product is not taken for zero. -/
theorem CrossClear.not_close (mp : ModPt p) (mq : ModPt q) {C : ℚ} (hC : 9 / 10 * (ρ * E ^ 2) ≤ |C|) :
    closeR C (tolR m f p q) a b = false := by
  have hE := hc.E_pos hT
  have hρ := hc.rho_pos hT
  have hρE := hc.rhoE hT
  have hEs := hc.E_ge hT
  have ht := hc.tol_le hT mp mq
  have hm0 : 0 < m := lt_of_lt_of_le (by positivity) hT.m_ge
  have ht0 : 0 < tolR m f p q := lt_of_lt_of_le hm0 (le_max_left _ _)
  have hq := lsqR_upper (dx := b.x - a.x) (dy := b.y - a.y) ((inv_pow_le (show 98 ≤ 160 by norm_num)).trans hEs)
    (hc.size b (by simp)).1 (hc.size b (by simp)).2
  set tl := tolR m f p q
  set Q := lsqR (b.x - a.x) (b.y - a.y)
  have i1 := inv_pow_mul hEs hEs
  have i2 := inv_pow_mul hρE i1
  have i3 := inv_pow_mul i2 hρE
  have h1 : tl * Q ≤ 53 / 100 * (ρ * E * (E * E)) := by
    calc tl * Q ≤ tl * (2085 / 1000 * (E * E)) := mul_le_mul_of_nonneg_left hq ht0.le
      _ ≤ ρ * E / 4 * (2085 / 1000 * (E * E)) := mul_le_mul_of_nonneg_right ht (by positivity)
      _ ≤ _ := by have : 0 < ρ * E * (E * E) := by positivity
                  nlinarith
  have h2 := rq_upper (by norm_num) (scale_le i2 (show (1:ℚ) / 2 ≤ 53 / 100 by norm_num)) h1
  have h3 : rq (tl * Q) * tl ≤ 1 / 2 * (ρ * E * (E * E) * (ρ * E)) := by
    have p1 : 0 < ρ * E * (E * E) := by positivity
    calc rq (tl * Q) * tl ≤ 101 / 100 * (53 / 100 * (ρ * E * (E * E))) * tl := mul_le_mul_of_nonneg_right h2 ht0.le
      _ ≤ 101 / 100 * (53 / 100 * (ρ * E * (E * E))) * (ρ * E / 4) := mul_le_mul_of_nonneg_left ht (by positivity)
      _ ≤ _ := by have : 0 < ρ * E * (E * E) * (ρ * E) := by positivity
                  nlinarith
  have h4 := rq_upper (by norm_num) (scale_le i3 (le_refl ((1:ℚ) / 2))) h3
  have h5 : 8 / 10 * (ρ * E * (E * E) * (ρ * E)) ≤ C * C := by
    rw [← abs_mul_abs_self C]
    have p1 : 0 < 9 / 10 * (ρ * E ^ 2) := by positivity
    have := mul_le_mul hC hC p1.le (abs_nonneg C)
    have p2 : 0 < ρ * E * (E * E) * (ρ * E) := by positivity
    have e : 9 / 10 * (ρ * E ^ 2) * (9 / 10 * (ρ * E ^ 2)) = 81 / 100 * (ρ * E * (E * E) * (ρ * E)) := by ring
    rw [e] at this
    linarith
  have h6 := rq_lower (by norm_num) (scale_le i3 (show (1:ℚ) / 2 ≤ 8 / 10 by norm_num)) h5
  unfold closeR
  rw [decide_eq_false_iff_not, not_lt]
  have p2 : 0 < ρ * E * (E * E) * (ρ * E) := by positivity
  linarith

/-- The computed cross products. -/
theorem CrossClear.cross_err {v w v' w' : Pt ℚ} (hv : v ∈ [a, b, p, q]) (hw : w ∈ [a, b, p, q]) (hv' : v' ∈ [a, b, p, q])
    (hw' : w' ∈ [a, b, p, q]) :
    |crossR (w.x - v.x) (w.y - v.y) (w'.x - v'.x) (w'.y - v'.y) -
      ((w.x - v.x) * (w'.y - v'.y) - (w.y - v.y) * (w'.x - v'.x))| ≤ 36 * (u * (E * E)) := by
  have b1 := hc.bound hT hw hv
  have b2 := hc.bound hT hw' hv'
  have := Fl.cross_err b1.1 b2.1 b1.2 b2.2 (hc.E2 hT) (hc.E2 hT)
  have e : 9 * u * (2 * E * (2 * E)) = 36 * (u * (E * E)) := by ring
  rw [e] at this
  exact this

theorem CrossClear.err_small : 36 * (u * (E * E)) ≤ 1 / 20 * (ρ * E ^ 2) := by
  have hu := hc.u_rho hT
  have hE := hc.E_pos hT
  have hEE : 0 < E * E := mul_pos hE hE
  have h1 : u * (E * E) * 1024 ≤ ρ * (E * E) := by
    have := mul_le_mul_of_nonneg_right hu hEE.le
    linarith
  have h2 := mul_pos u_pos hEE
  have : ρ * E ^ 2 = ρ * (E * E) := by ring
  rw [this]
  linarith

theorem CrossClear.side_err {v : Pt ℚ} (hv : v ∈ [p, q]) (ho : ρ * E ^ 2 ≤ |orient a b v|) :
    9 / 10 * (ρ * E ^ 2) ≤ |crossR (b.x - a.x) (b.y - a.y) (v.x - a.x) (v.y - a.y)| := by
  have h1 := hc.cross_err hT (v := a) (w := b) (v' := a) (w' := v) (by simp) (by simp) (by simp)
    (by simp only [List.mem_cons] at hv ⊢; exact Or.inr (Or.inr hv))
  have e : (b.x - a.x) * (v.y - a.y) - (b.y - a.y) * (v.x - a.x) = orient a b v := by unfold orient; ring
  rw [e] at h1
  have h2 := hc.err_small hT
  set X := crossR (b.x - a.x) (b.y - a.y) (v.x - a.x) (v.y - a.y)
  have h3 : |orient a b v| ≤ |X| + |X - orient a b v| := by
    calc |orient a b v| = |X - (X - orient a b v)| := by ring_nf
      _ ≤ _ := abs_sub _ _
  have hE := hc.E_pos hT
  have hρ := hc.rho_pos hT
  have : 0 < ρ * E ^ 2 := by positivity
  linarith

/-- Segments that clearly do not cross are not reported. -/
theorem CrossClear.nothing (ma : ModPt a) (mb : ModPt b) (mp : ModPt p) (mq : ModPt q) (h : ¬ ProperCross a b p q) :
    linesIntersect env (fp a) (fp b) (fp p) (fp q) = .ok (false, none) := by
  have hE := hc.E_pos hT
  have hρ := hc.rho_pos hT
  have h0 : 0 < ρ * E ^ 2 := by positivity
  rw [linesIntersect_flEq hT ma mb mp mq]
  rw [hc.left hT (v := p) (w := q) (x := a) (by simp) (by simp) (by simp) hc.third,
    hc.left hT (v := p) (w := q) (x := b) (by simp) (by simp) (by simp) hc.fourth,
    hc.left hT (v := a) (w := b) (x := p) (by simp) (by simp) (by simp) hc.first,
    hc.left hT (v := a) (w := b) (x := q) (by simp) (by simp) (by simp) hc.second]
  have hne : ¬ (decide (0 < orient p q a) ≠ decide (0 < orient p q b) ∧ decide (0 < orient a b p) ≠ decide (0 < orient a b q)) := by
    rintro ⟨g1, g2⟩
    apply h
    have key : ∀ x y : ℚ, 0 < |x| → 0 < |y| → decide (0 < x) ≠ decide (0 < y) → x * y < 0 := by
      intro x y hx hy hxy
      rw [ne_eq, decide_eq_decide] at hxy
      rcases lt_or_gt_of_ne (abs_pos.1 hx) with h1 | h1 <;> rcases lt_or_gt_of_ne (abs_pos.1 hy) with h2 | h2
      · exact absurd ⟨fun h => absurd h h1.not_gt, fun h => absurd h h2.not_gt⟩ hxy
      · exact mul_neg_of_neg_of_pos h1 h2
      · exact mul_neg_of_pos_of_neg h1 h2
      · exact absurd ⟨fun _ => h2, fun _ => h1⟩ hxy
    exact ⟨key _ _ (lt_of_lt_of_le h0 hc.third) (lt_of_lt_of_le h0 hc.fourth) g1,
      key _ _ (lt_of_lt_of_le h0 hc.first) (lt_of_lt_of_le h0 hc.second) g2⟩
  rw [if_neg hne, hc.not_close hT mp mq (hc.side_err hT (v := p) (by simp) hc.first)]
  simp

theorem CrossClear.kappa : 0 ≤ 18 * u / ρ ∧ 18 * u / ρ ≤ 1 / 16 ∧ u ≤ 18 * u / ρ ∧ 3 * (18 * u / ρ) ≤ theta ρ ∧
    theta ρ ≤ 1 / 16 := by
  have hρ := hc.rho_pos hT
  have hu := u_pos
  have h1 := hc.rho.2
  have h2 := hc.rho.1
  rw [div_le_iff₀ (by positivity)] at h2
  have e : u = 1 / 2 ^ 53 := rfl
  refine ⟨by positivity, ?_, ?_, ?_, ?_⟩
  · rw [div_le_iff₀ hρ, e]
    norm_num at h2 ⊢
    linarith
  · rw [le_div_iff₀ hρ]
    have := mul_le_mul_of_nonneg_left h1 hu.le
    linarith
  · unfold theta
    rw [← mul_div_assoc, div_le_div_iff₀ hρ (by positivity), e]
    norm_num
    linarith
  · unfold theta
    rw [div_le_iff₀ (by positivity)]
    norm_num at h2 ⊢
    linarith

/-- The tests that come first. -/
theorem CrossClear.guard (h : ProperCross a b p q) : GuardR (tolR m f p q) a b p q := by
  have hm0 : 0 < m := lt_of_lt_of_le (by positivity) hT.m_ge
  have ht0 : 0 < tolR m f p q := lt_of_lt_of_le hm0 (le_max_left _ _)
  have g := h.guard (tol := 1) one_pos
  have hs := straddles_share h.straddles
  have key : ∀ x : ℚ, (∀ ε, 0 < ε → x < ε) → rq x < tolR m f p q := by
    intro x hx
    have h0 : x ≤ 0 := le_of_forall_pos_lt_add fun ε hε => by rw [zero_add]; exact hx ε hε
    have := rq_mono h0
    rw [rq_zero] at this
    exact lt_of_le_of_lt this ht0
  exact ⟨g.1, g.2.1, g.2.2.1, g.2.2.2.1, ⟨key _ fun ε hε => (hs.overlap hε).1.1, key _ fun ε hε => (hs.overlap hε).1.2⟩,
    key _ fun ε hε => (hs.overlap hε).2.1, key _ fun ε hε => (hs.overlap hε).2.2⟩

/-- Segments that clearly cross are reported, with an accurate location. -/
theorem CrossClear.crossing {M : ℚ} (hM : 1 / 2 ^ 100 ≤ M) (hM' : M ≤ 2 ^ 199) (ma : ModPt a) (mb : ModPt b) (mp : ModPt p)
    (mq : ModPt q) (ba : Bnd M a) (bb : Bnd M b) (h : ProperCross a b p q) :
    ∃ x, linesIntersect env (fp a) (fp b) (fp p) (fp q) = .ok (true, some (fp x)) ∧
      Within (crossAcc M E ρ) x (lineAt a b (crossAt a b p q)) := by
  have hE := hc.E_pos hT
  have hρ := hc.rho_pos hT
  have h0 : 0 < ρ * E ^ 2 := by positivity
  obtain ⟨κ0, κ1, κ2, κ3, κ4⟩ := hc.kappa hT
  obtain ⟨t0, t1, _⟩ := ratio_unit h.straddles.1
  have hst := h.straddles
  rw [linesIntersect_flEq hT ma mb mp mq, if_pos (hc.guard hT h), if_pos, location_flEq hT ma mb mp mq]
  swap
  · rw [hc.left hT (v := p) (w := q) (x := a) (by simp) (by simp) (by simp) hc.third,
      hc.left hT (v := p) (w := q) (x := b) (by simp) (by simp) (by simp) hc.fourth,
      hc.left hT (v := a) (w := b) (x := p) (by simp) (by simp) (by simp) hc.first,
      hc.left hT (v := a) (w := b) (x := q) (by simp) (by simp) (by simp) hc.second,
      ne_eq, ne_eq, decide_eq_decide, decide_eq_decide]
    exact hst
  have e1 := hc.cross_err hT (v := a) (w := p) (v' := p) (w' := q) (by simp) (by simp) (by simp) (by simp)
  have e2 := hc.cross_err hT (v := a) (w := b) (v' := p) (w' := q) (by simp) (by simp) (by simp) (by simp)
  have q1 : (p.x - a.x) * (q.y - p.y) - (p.y - a.y) * (q.x - p.x) = orient p q a := by unfold orient; ring
  have q2 : (b.x - a.x) * (q.y - p.y) - (b.y - a.y) * (q.x - p.x) = orient p q a - orient p q b := by unfold orient; ring
  rw [q1] at e1
  rw [q2] at e2
  have hk : 2 * (ρ * E ^ 2) ≤ |orient p q a - orient p q b| := by
    have c1 := hc.third
    have c2 := hc.fourth
    rcases mul_neg_iff.1 h.1 with ⟨o1, o2⟩ | ⟨o1, o2⟩
    · rw [abs_of_pos o1] at c1
      rw [abs_of_neg o2] at c2
      exact le_trans (by linarith) (le_abs_self _)
    · rw [abs_of_neg o1] at c1
      rw [abs_of_pos o2] at c2
      exact le_trans (by linarith) (neg_le_abs _)
  have hk0 : 0 < |orient p q a - orient p q b| := by linarith
  have hδ : 36 * (u * (E * E)) ≤ 18 * u / ρ * |orient p q a - orient p q b| := by
    refine le_trans (le_of_eq ?_) (mul_le_mul_of_nonneg_left hk κ0)
    field_simp; ring
  have key := hit_err hk0 (e1.trans hδ) (e2.trans hδ) κ0 κ1 κ2
  have hs := hc.err_small hT
  have hX : 9 / 10 * (ρ * E ^ 2) ≤ |crossR (b.x - a.x) (b.y - a.y) (q.x - p.x) (q.y - p.y)| := by
    set X := crossR (b.x - a.x) (b.y - a.y) (q.x - p.x) (q.y - p.y)
    have h3 : |orient p q a - orient p q b| ≤ |X| + |X - (orient p q a - orient p q b)| := by
      calc |orient p q a - orient p q b| = |X - (X - (orient p q a - orient p q b))| := by ring_nf
        _ ≤ _ := abs_sub _ _
    linarith
  rw [hc.not_close hT mp mq hX]
  have hne : crossR (b.x - a.x) (b.y - a.y) (q.x - p.x) (q.y - p.y) ≠ 0 := by
    intro h'; rw [h', abs_zero] at hX; linarith
  set N := crossR (p.x - a.x) (p.y - a.y) (q.x - p.x) (q.y - p.y)
  set X := crossR (b.x - a.x) (b.y - a.y) (q.x - p.x) (q.y - p.y)
  have ht : |crossAt a b p q| ≤ 1 := by
    unfold crossAt; rw [abs_of_nonneg t0]; exact t1
  have key2 : |rq (N / X) - crossAt a b p q| ≤ 2 * theta ρ := by
    refine key.trans ?_
    change 3 * (18 * u / ρ) * (1 + |crossAt a b p q|) ≤ _
    have hθ : 0 ≤ 3 * (18 * u / ρ) := by linarith
    calc 3 * (18 * u / ρ) * (1 + |crossAt a b p q|) ≤ 3 * (18 * u / ρ) * 2 := mul_le_mul_of_nonneg_left (by linarith) hθ
      _ ≤ theta ρ * 2 := mul_le_mul_of_nonneg_right κ3 (by norm_num)
      _ = _ := by ring
  have hτ : |rq (N / X)| ≤ 2 := by
    calc |rq (N / X)| = |(rq (N / X) - crossAt a b p q) + crossAt a b p q| := by ring_nf
      _ ≤ _ := (abs_add_le _ _).trans (by linarith)
  have hdiv : fdiv (fin N) (fin X) = .ok (fin (rq (N / X))) := by
    refine fdiv_fin (k := 1000) hne le_rfl ?_
    by_contra hbig
    push Not at hbig
    have : (2:ℚ) ^ 1000 ≤ |rq (N / X)| := by
      rw [abs_rq]; exact le_rq (isRep_two_pow 1000) hbig.le
    have h4 : (2:ℚ) ^ 2 ≤ 2 ^ 1000 := pow_le_pow_right₀ (by norm_num) (by norm_num)
    have h5 : (2:ℚ) < 2 ^ 2 := by norm_num
    exact absurd (h5.trans_le (h4.trans (this.trans hτ))) (lt_irrefl _)
  rw [hdiv]
  obtain ⟨x, x1, x2⟩ := toPoint_fl2 hM hM' ma mb ba bb (hc.size b (by simp)) hτ key2
  refine ⟨x, ?_, x2.mono ?_⟩
  · simp only [Bool.false_eq_true, if_false]
    change (Except.ok (true, some (toPoint (fin (rq (N / X))) (fp a) (toVector (fp a) (fp b)))) : Celltree.M _) = _
    rw [x1]
  · unfold crossAcc theta
    have e1 : 2 * (1 / (2 ^ 47 * ρ)) * E = E / (2 ^ 46 * ρ) := by field_simp
    have e2 : 2 * M / 2 ^ 49 = M / 2 ^ 48 := by ring
    rw [e1, e2]

end

end Celltree.Fl
