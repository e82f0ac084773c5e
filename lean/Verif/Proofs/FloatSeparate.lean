import Verif.Proofs.ClipSize
import Verif.Proofs.Separating
import Verif.Proofs.FloatConvex
import Verif.Spec.FloatSize

/-!
# The separating axis test in binary64
-/

set_option linter.unusedSectionVars false

namespace Celltree.Fl

/-- The computed projection of `v` on `n`. -/
def dl (n v : Pt ℚ) : ℚ := rq (rq (v.x * n.x) + rq (v.y * n.y))

/-- The sum of the absolute values. -/
def nrm (n : Pt ℚ) : ℚ := |n.x| + |n.y|

theorem dot_fl {n v : Pt ℚ} (hn : Bnd (2 ^ 402) n) (hv : Bnd (2 ^ 400) v) : dot (fp v) (fp n) = fin (dl n v) := by
  have h1 := abs_mul_le_pow hv.1 hn.1
  have h2 := abs_mul_le_pow hv.2 hn.2
  unfold dot fp
  simp only
  rw [mul_fin (by norm_num) h1, mul_fin (by norm_num) h2,
    add_fin (k := 803) (by norm_num) (abs_add_le_pow (abs_rq_le h1) (abs_rq_le h2))]
  rfl

theorem abs_dl_le {n v : Pt ℚ} (hn : Bnd (2 ^ 402) n) (hv : Bnd (2 ^ 400) v) : |dl n v| ≤ maxNat := by
  have h1 := abs_mul_le_pow hv.1 hn.1
  have h2 := abs_mul_le_pow hv.2 hn.2
  exact (abs_rq_le (k := 803) (abs_add_le_pow (abs_rq_le h1) (abs_rq_le h2))).trans (pow_le_big (by norm_num))

theorem dl_err {n v : Pt ℚ} {M : ℚ} (hv : Bnd M v) : |dl n v - along n v| ≤ 3 * u * M * nrm n + 4 * eta := by
  have e1 := rq_err_add (v.x * n.x)
  have e2 := rq_err_add (v.y * n.y)
  have e3 := rq_err_add (rq (v.x * n.x) + rq (v.y * n.y))
  have b1 : |v.x * n.x| ≤ M * |n.x| := by rw [abs_mul]; exact mul_le_mul_of_nonneg_right hv.1 (abs_nonneg _)
  have b2 : |v.y * n.y| ≤ M * |n.y| := by rw [abs_mul]; exact mul_le_mul_of_nonneg_right hv.2 (abs_nonneg _)
  have hu := u_pos
  have hu' := u_le
  have he := eta_pos
  have hM : 0 ≤ M := (abs_nonneg _).trans hv.1
  have hX : 0 ≤ M * |n.x| := mul_nonneg hM (abs_nonneg _)
  have hY : 0 ≤ M * |n.y| := mul_nonneg hM (abs_nonneg _)
  have c1 := mul_le_mul_of_nonneg_left b1 hu.le
  have c2 := mul_le_mul_of_nonneg_left b2 hu.le
  unfold dl along nrm
  have e : 3 * u * M * (|n.x| + |n.y|) = 3 * (u * (M * |n.x|)) + 3 * (u * (M * |n.y|)) := by ring
  rw [e, show n.x * v.x + n.y * v.y = v.x * n.x + v.y * n.y by ring]
  generalize M * |n.x| = X at *
  generalize M * |n.y| = Y at *
  generalize v.x * n.x = a at *
  generalize v.y * n.y = b at *
  generalize rq (rq a + rq b) = c at *
  generalize rq a = a' at *
  generalize rq b = b' at *
  have e4 : |a' + b'| ≤ 2 * X + 2 * Y + 2 * eta := by
    have t1 : |a' + b'| ≤ |a'| + |b'| := abs_add_le _ _
    have t2 : |a'| ≤ |a' - a| + |a| := by have := abs_add_le (a' - a) a; simpa using this
    have t3 : |b'| ≤ |b' - b| + |b| := by have := abs_add_le (b' - b) b; simpa using this
    have t4 : u * X ≤ X := by nlinarith
    have t5 : u * Y ≤ Y := by nlinarith
    linarith
  have e5 : u * |a' + b'| ≤ u * (2 * X + 2 * Y + 2 * eta) := mul_le_mul_of_nonneg_left e4 hu.le
  have e6 : u * (2 * X + 2 * Y + 2 * eta) = 2 * (u * X) + 2 * (u * Y) + 2 * (u * eta) := by ring
  have e7 : u * eta ≤ eta / 2 := by nlinarith
  have e8 : |c - (a + b)| ≤ |c - (a' + b')| + (|a' - a| + |b' - b|) := by
    have t1 := abs_add_le (c - (a' + b')) (a' - a + (b' - b))
    have t2 := abs_add_le (a' - a) (b' - b)
    have : c - (a' + b') + (a' - a + (b' - b)) = c - (a + b) := by ring
    rw [this] at t1
    linarith
  linarith

/-! ## Extrema -/

theorem extrema_fl {n : Pt ℚ} (hn : Bnd (2 ^ 402) n) (l : List (Pt ℚ)) (hl : ∀ v ∈ l, Bnd (2 ^ 400) v) (x y : ℚ) :
    ∃ mn mx, (l.map fp).foldl (fun (m : Fl × Fl) p => (fmin m.1 (dot p (fp n)), fmax m.2 (dot p (fp n)))) (fin x, fin y) =
      (fin mn, fin mx) ∧ (∀ c, c ≤ mn ↔ c ≤ x ∧ ∀ v ∈ l, c ≤ dl n v) ∧ ∀ c, mx ≤ c ↔ y ≤ c ∧ ∀ v ∈ l, dl n v ≤ c := by
  induction l generalizing x y with
  | nil => exact ⟨x, y, rfl, by simp, by simp⟩
  | cons a l ih =>
    obtain ⟨mn, mx, h1, h2, h3⟩ := ih (fun v hv => hl v (List.mem_cons_of_mem _ hv)) (min x (dl n a)) (max y (dl n a))
    refine ⟨mn, mx, ?_, ?_, ?_⟩
    · rw [List.map_cons, List.foldl_cons]
      simp only
      rw [dot_fl hn (hl a List.mem_cons_self), fmin_fin, fmax_fin]
      exact h1
    · intro c; rw [h2, le_min_iff]; simp [and_assoc]
    · intro c; rw [h3, max_le_iff]; simp [and_assoc]

variable {env : Env Fl}

/-- The test for one axis says that it is not separating exactly if the computed intervals overlap. -/
theorem axis_fl (hmax : env.floatMax = fin maxNat) (hmin : env.floatMin = fin (-maxNat)) {n : Pt ℚ} (hn : Bnd (2 ^ 402) n)
    {A B : List (Pt ℚ)} (hA : ∀ v ∈ A, Bnd (2 ^ 400) v) (hB : ∀ v ∈ B, Bnd (2 ^ 400) v) (hA0 : A ≠ []) (hB0 : B ≠ []) :
    isSeparatingAxis env (fp n) (A.map fp) (B.map fp) = false ↔
      (∃ v ∈ A, ∃ w ∈ B, dl n w < dl n v) ∧ ∃ v ∈ A, ∃ w ∈ B, dl n v < dl n w := by
  obtain ⟨mna, mxa, a1, a2, a3⟩ := extrema_fl hn A hA maxNat (-maxNat)
  obtain ⟨mnb, mxb, b1, b2, b3⟩ := extrema_fl hn B hB maxNat (-maxNat)
  have hle : ∀ {A B : List (Pt ℚ)} {mx mn : ℚ}, A ≠ [] → B ≠ [] → (∀ v ∈ A, Bnd (2 ^ 400) v) → (∀ v ∈ B, Bnd (2 ^ 400) v) →
      (∀ c, mx ≤ c ↔ (-maxNat : ℚ) ≤ c ∧ ∀ v ∈ A, dl n v ≤ c) → (∀ c, c ≤ mn ↔ c ≤ (maxNat : ℚ) ∧ ∀ v ∈ B, c ≤ dl n v) →
      (mn < mx ↔ ∃ v ∈ A, ∃ w ∈ B, dl n w < dl n v) := by
    intro A B mx mn hA0 hB0 hA hB h1 h2
    rw [← not_le, h1]
    constructor
    · intro h
      by_contra hno
      push Not at hno
      refine h ⟨?_, fun v hv => ?_⟩
      · rw [h2]
        refine ⟨?_, fun w hw => (abs_le.1 (abs_dl_le hn (hB w hw))).1⟩
        have : (0 : ℚ) ≤ maxNat := Nat.cast_nonneg _
        linarith
      · rw [h2]
        exact ⟨(abs_le.1 (abs_dl_le hn (hA v hv))).2, fun w hw => hno v hv w hw⟩
    · rintro ⟨v, hv, w, hw, h⟩ ⟨_, h'⟩
      have h3 := ((h2 mn).1 le_rfl).2 w hw
      have h4 := h' v hv
      linarith
  have h1 := hle hA0 hB0 hA hB a3 b2
  have h2 := hle hB0 hA0 hB hA b3 a2
  unfold isSeparatingAxis extremaProjected
  rw [hmax, hmin, a1, b1]
  simp only
  have e : ((decide (fin mxa > fin mnb) && decide (fin mxb > fin mna)) = true) ↔ mnb < mxa ∧ mna < mxb := by
    rw [Bool.and_eq_true, decide_eq_true_eq, decide_eq_true_eq, gt_iff_lt, gt_iff_lt, lt_fin, lt_fin]
  constructor
  · intro h
    split at h
    · rename_i hc
      rw [e] at hc
      obtain ⟨v, hv, w, hw, hlt⟩ := h2.1 hc.2
      exact ⟨h1.1 hc.1, w, hw, v, hv, hlt⟩
    · cases h
  · rintro ⟨c1, w, hw, v, hv, hlt⟩
    rw [if_pos]
    rw [e]
    exact ⟨h1.2 c1, h2.2 ⟨v, hv, w, hw, hlt⟩⟩

/-! ## The loop -/

/-- The computed normal of a side. -/
def nv (s : Pt ℚ × Pt ℚ) : Pt ℚ := ⟨rq (s.1.y - s.2.y), rq (s.2.x - s.1.x)⟩

/-- The computed intervals of the two sets of points overlap. -/
def OverlapOn (n : Pt ℚ) (A B : List (Pt ℚ)) : Prop :=
  (∃ v ∈ A, ∃ w ∈ B, dl n w < dl n v) ∧ ∃ v ∈ A, ∃ w ∈ B, dl n v < dl n w

theorem nv_bnd {s : Pt ℚ × Pt ℚ} (h1 : Bnd (2 ^ 400) s.1) (h2 : Bnd (2 ^ 400) s.2) : Bnd (2 ^ 402) (nv s) := by
  have e1 := abs_rq_le (abs_sub_le_pow h1.2 h2.2)
  have e2 := abs_rq_le (abs_sub_le_pow h2.1 h1.1)
  have e : (2 : ℚ) ^ 401 ≤ 2 ^ 402 := pow_le_pow_right₀ (by norm_num) (by norm_num)
  exact ⟨e1.trans e, e2.trans e⟩

theorem satLoop_fl (hmax : env.floatMax = fin maxNat) (hmin : env.floatMin = fin (-maxNat)) {A B : List (Pt ℚ)}
    (hA : ∀ v ∈ A, Bnd (2 ^ 400) v) (hB : ∀ v ∈ B, Bnd (2 ^ 400) v) (hA0 : A ≠ []) (hB0 : B ≠ []) (p : Pt ℚ)
    (l : List (Pt ℚ)) (hp : Bnd (2 ^ 400) p) (hl : ∀ v ∈ l, Bnd (2 ^ 400) v) :
    separatingAxesLoop env (A.map fp) (B.map fp) (fp p) (l.map fp) = true ↔
      ∀ s ∈ pairs (p :: l), nv s ≠ ⟨0, 0⟩ → OverlapOn (nv s) A B := by
  induction l generalizing p with
  | nil => simp [separatingAxesLoop, pairs]
  | cons q l ih =>
    have hq := hl q List.mem_cons_self
    rw [List.map_cons]
    unfold separatingAxesLoop
    simp only [pairs_cons_cons, List.mem_cons, forall_eq_or_imp]
    have e : (⟨(fp p).y - (fp q).y, (fp q).x - (fp p).x⟩ : Pt Fl) = fp (nv (p, q)) := by
      unfold fp nv
      simp only
      rw [sub_fin (by norm_num) (abs_sub_le_pow hp.2 hq.2), sub_fin (by norm_num) (abs_sub_le_pow hq.1 hp.1)]
    have e0 : (((fp p).y - (fp q).y == 0) && ((fp q).x - (fp p).x == 0)) = decide (nv (p, q) = ⟨0, 0⟩) := by
      have h1 : (fp p).y - (fp q).y = (fp (nv (p, q))).x := congrArg Pt.x e
      have h2 : (fp q).x - (fp p).x = (fp (nv (p, q))).y := congrArg Pt.y e
      rw [h1, h2]
      unfold fp
      simp only
      rw [zero_def, beq_fin, beq_fin, ← Bool.decide_and, decide_eq_decide]
      exact ⟨fun h => Pt.ext' h.1 h.2, fun h => by rw [h]; exact ⟨rfl, rfl⟩⟩
    rw [e0, e]
    have ih' := ih q hq fun v hv => hl v (List.mem_cons_of_mem _ hv)
    by_cases h0 : nv (p, q) = ⟨0, 0⟩
    · rw [if_pos (by simpa using h0), ih']
      exact ⟨fun h => ⟨fun h' => absurd h0 h', h⟩, fun h => h.2⟩
    · rw [if_neg (by simpa using h0)]
      have hax := axis_fl hmax hmin (nv_bnd (s := (p, q)) hp hq) hA hB hA0 hB0
      cases hs : isSeparatingAxis env (fp (nv (p, q))) (A.map fp) (B.map fp) with
      | true =>
        simp only [if_true, Bool.false_eq_true, false_iff]
        intro h
        have := hax.2 (h.1 h0)
        rw [hs] at this
        cases this
      | false =>
        simp only [Bool.false_eq_true, if_false, ih']
        exact ⟨fun h => ⟨fun _ => hax.1 hs, h⟩, fun h => h.2⟩

theorem nv_swap (s : Pt ℚ × Pt ℚ) : nv s.swap = ⟨-(nv s).x, -(nv s).y⟩ := by
  unfold nv
  simp only [Prod.fst_swap, Prod.snd_swap]
  rw [← rq_neg, ← rq_neg, neg_sub, neg_sub]

theorem dl_neg (n v : Pt ℚ) : dl ⟨-n.x, -n.y⟩ v = -dl n v := by
  unfold dl
  simp only
  rw [mul_neg, mul_neg, rq_neg, rq_neg, ← neg_add, rq_neg]

theorem OverlapOn.neg {n : Pt ℚ} {A B : List (Pt ℚ)} (h : OverlapOn n A B) : OverlapOn ⟨-n.x, -n.y⟩ A B := by
  obtain ⟨⟨v, hv, w, hw, h1⟩, v', hv', w', hw', h2⟩ := h
  exact ⟨⟨v', hv', w', hw', by rw [dl_neg, dl_neg]; linarith⟩, v, hv, w, hw, by rw [dl_neg, dl_neg]; linarith⟩

theorem OverlapOn.mono {n : Pt ℚ} {A B A' B' : List (Pt ℚ)} (h : OverlapOn n A B) (hA : ∀ v ∈ A, v ∈ A')
    (hB : ∀ v ∈ B, v ∈ B') : OverlapOn n A' B' := by
  obtain ⟨⟨v, hv, w, hw, h1⟩, v', hv', w', hw', h2⟩ := h
  exact ⟨⟨v, hA v hv, w, hB w hw, h1⟩, v', hA v' hv', w', hB w' hw', h2⟩

theorem mem_or_reverse {l A : List (Pt ℚ)} (h : l = A ∨ l = A.reverse) (v : Pt ℚ) : v ∈ l ↔ v ∈ A := by
  rcases h with rfl | rfl <;> simp

/-- The test in binary64, for polygons stored in either direction. -/
theorem separatingAxes_fl (hmax : env.floatMax = fin maxNat) (hmin : env.floatMin = fin (-maxNat)) {A B A' B' : List (Pt ℚ)}
    (hA : ∀ v ∈ A, Bnd (2 ^ 400) v) (hB : ∀ v ∈ B, Bnd (2 ^ 400) v) (hA0 : A ≠ []) (hB0 : B ≠ [])
    (hA' : A' = A ∨ A' = A.reverse) (hB' : B' = B ∨ B' = B.reverse) :
    separatingAxes env (A'.map fp) (B'.map fp) = .ok true ↔
      ∀ s ∈ sides A, nv s ≠ ⟨0, 0⟩ → OverlapOn (nv s) A B := by
  have mA := mem_or_reverse hA'
  have mB := mem_or_reverse hB'
  have hA0' : A' ≠ [] := by rcases hA' with rfl | rfl <;> simpa using hA0
  have hB0' : B' ≠ [] := by rcases hB' with rfl | rfl <;> simpa using hB0
  have hbA : ∀ v ∈ A', Bnd (2 ^ 400) v := fun v hv => hA v ((mA v).1 hv)
  have hbB : ∀ v ∈ B', Bnd (2 ^ 400) v := fun v hv => hB v ((mB v).1 hv)
  unfold separatingAxes
  rw [rdI_length_sub_one (by simpa using hA0'), ok_bind, List.getLast_map, Except.ok.injEq,
    satLoop_fl hmax hmin hbA hbB hA0' hB0' _ _ (hbA _ (List.getLast_mem _)) hbA]
  constructor
  · intro h s hs h0
    rcases mem_sides_poly (poly := A') hA' hs with h1 | h1
    · exact (h s ((mem_sides_pairs hA0').1 h1) h0).mono (fun v => (mA v).1) fun v => (mB v).1
    · have := (h s.swap ((mem_sides_pairs hA0').1 h1) (fun h' => h0 (by
        rw [nv_swap] at h'
        have hx := congrArg Pt.x h'
        have hy := congrArg Pt.y h'
        exact Pt.ext' (neg_eq_zero.1 hx) (neg_eq_zero.1 hy)))).neg
      rw [nv_swap] at this
      simp only [neg_neg] at this
      exact this.mono (fun v => (mA v).1) fun v => (mB v).1
  · intro h s hs h0
    rcases mem_sides_poly' (poly := A') hA' ((mem_sides_pairs hA0').2 hs) with h1 | h1
    · exact (h s h1 h0).mono (fun v => (mA v).2) fun v => (mB v).2
    · have := (h s.swap h1 (fun h' => h0 (by
        rw [nv_swap] at h'
        have hx := congrArg Pt.x h'
        have hy := congrArg Pt.y h'
        exact Pt.ext' (neg_eq_zero.1 hx) (neg_eq_zero.1 hy)))).neg
      rw [nv_swap] at this
      simp only [neg_neg] at this
      exact this.mono (fun v => (mA v).2) fun v => (mB v).2

/-! ## Rounding errors -/

theorem tiny_lt {M N : ℚ} (hM : 1 / 2 ^ 100 ≤ M) (hN : 1 / 2 ^ 900 ≤ N) : 100 * eta < u * M * N := by
  have h1 : (1 : ℚ) / 2 ^ 100 * (1 / 2 ^ 900) ≤ M * N :=
    mul_le_mul hM hN (by positivity) (le_trans (by positivity) hM)
  have h2 := mul_le_mul_of_nonneg_left h1 u_pos.le
  refine lt_of_lt_of_le ?_ (h2.trans_eq (by ring))
  unfold u eta
  rw [div_mul_div_comm, one_mul, ← pow_add, div_mul_div_comm, one_mul, ← pow_add, mul_one_div,
    div_lt_div_iff₀ (by positivity) (by positivity), one_mul, show (1075 : Nat) = 53 + (100 + 900) + 22 by norm_num,
    pow_add 2 (53 + (100 + 900)) 22, mul_comm]
  exact mul_lt_mul_of_pos_left (by norm_num) (by positivity)

theorem nv_eq {s : Pt ℚ × Pt ℚ} (h : s.1 = s.2) : nv s = ⟨0, 0⟩ := by
  unfold nv; rw [h, sub_self, sub_self, rq_zero]

theorem nrm_nv {s : Pt ℚ × Pt ℚ} (h : 1 / 2 ^ 900 ≤ |s.2.x - s.1.x| ∨ 1 / 2 ^ 900 ≤ |s.2.y - s.1.y|) :
    1 / 2 ^ 900 ≤ nrm (nv s) := by
  unfold nrm nv
  rcases h with h | h
  · have := le_abs_rq (by norm_num) h
    have h2 := abs_nonneg (rq (s.1.y - s.2.y))
    simp only
    linarith only [this, h2]
  · rw [abs_sub_comm] at h
    have := le_abs_rq (by norm_num) h
    have h2 := abs_nonneg (rq (s.2.x - s.1.x))
    simp only
    linarith only [this, h2]

theorem ne_of_nrm {n : Pt ℚ} (h : 0 < nrm n) : n.x ≠ 0 ∨ n.y ≠ 0 := by
  by_contra hh
  push Not at hh
  unfold nrm at h
  rw [hh.1, hh.2] at h
  simp at h

/-- A common square is enough for overlap of the computed intervals. -/
theorem overlapOn_of_square {A B : List (Pt ℚ)} {n c : Pt ℚ} {M r : ℚ} (hA : ConvexPoly A) (hB : ConvexPoly B)
    (bA : ∀ v ∈ A, Bnd M v) (bB : ∀ v ∈ B, Bnd M v) (sA : SquareIn A c r) (sB : SquareIn B c r)
    (hM : 1 / 2 ^ 100 ≤ M) (hn : 1 / 2 ^ 900 ≤ nrm n) (hr : M / 2 ^ 51 ≤ r) : OverlapOn n A B := by
  have hn0 : 0 < nrm n := lt_of_lt_of_le (by positivity) hn
  have hM0 : 0 < M := lt_of_lt_of_le (by positivity) hM
  have hd := ne_of_nrm hn0
  have hr0 : 0 ≤ r := le_trans (by positivity) hr
  have sgn : ∀ x : ℚ, ∃ g : ℚ, |g| ≤ 1 ∧ x * g = |x| := by
    intro x
    rcases le_total 0 x with h | h
    · exact ⟨1, by norm_num, by rw [mul_one, abs_of_nonneg h]⟩
    · exact ⟨-1, by norm_num, by rw [mul_neg_one, abs_of_nonpos h]⟩
  obtain ⟨gx, x1, x2⟩ := sgn n.x
  obtain ⟨gy, y1, y2⟩ := sgn n.y
  have bd : ∀ g : ℚ, |g| ≤ 1 → |r * g| ≤ r := by
    intro g hg
    rw [abs_mul, abs_of_nonneg hr0]
    nlinarith
  have key : ∀ {P : List (Pt ℚ)}, ConvexPoly P → (∀ v ∈ P, Bnd M v) → SquareIn P c r →
      (∃ v ∈ P, along n c + r * nrm n - (3 * u * M * nrm n + 4 * eta) ≤ dl n v) ∧
      ∃ v ∈ P, dl n v ≤ along n c - r * nrm n + (3 * u * M * nrm n + 4 * eta) := by
    intro P hP bP sP
    constructor
    · obtain ⟨v, hv, h⟩ := hP.exists_ge (sP ⟨c.x + r * gx, c.y + r * gy⟩ (by simpa using bd _ x1) (by simpa using bd _ y1)) hd
      refine ⟨v, hv, ?_⟩
      have he := (abs_le.1 (dl_err (n := n) (bP v hv))).1
      have : along n ⟨c.x + r * gx, c.y + r * gy⟩ = along n c + r * nrm n := by
        unfold along nrm; rw [← x2, ← y2]; ring
      linarith only [h, he, this]
    · obtain ⟨v, hv, h⟩ := hP.exists_le (sP ⟨c.x - r * gx, c.y - r * gy⟩
        (by rw [sub_sub_cancel_left, abs_neg]; exact bd _ x1) (by rw [sub_sub_cancel_left, abs_neg]; exact bd _ y1)) hd
      refine ⟨v, hv, ?_⟩
      have he := (abs_le.1 (dl_err (n := n) (bP v hv))).2
      have : along n ⟨c.x - r * gx, c.y - r * gy⟩ = along n c - r * nrm n := by
        unfold along nrm; rw [← x2, ← y2]; ring
      linarith only [h, he, this]
  obtain ⟨⟨v, hv, v1⟩, v', hv', v2⟩ := key hA bA sA
  obtain ⟨⟨w, hw, w1⟩, w', hw', w2⟩ := key hB bB sB
  have t := tiny_lt hM hn
  have hr' : 4 * u * M ≤ r := by
    refine le_trans (le_of_eq ?_) hr
    unfold u; ring
  have t2 := mul_le_mul_of_nonneg_right hr' hn0.le
  have t3 := eta_pos
  have fin1 : 3 * u * M * nrm n + 4 * eta < r * nrm n := by
    have e1 : 4 * u * M * nrm n = 4 * (u * M * nrm n) := by ring
    have e2 : 3 * u * M * nrm n = 3 * (u * M * nrm n) := by ring
    rw [e1] at t2
    rw [e2]
    linarith only [t, t2, t3]
  exact ⟨⟨v, hv, w', hw', by linarith only [v1, w2, fin1]⟩, v', hv', w, hw, by linarith only [v2, w1, fin1]⟩

/-- The error of a computed projection on a computed normal. -/
theorem dl_nv_err {s : Pt ℚ × Pt ℚ} {v : Pt ℚ} {M : ℚ} (hv : Bnd M v) (hM : 1 / 2 ^ 100 ≤ M)
    (h : 1 / 2 ^ 900 ≤ |s.2.x - s.1.x| ∨ 1 / 2 ^ 900 ≤ |s.2.y - s.1.y|) :
    |dl (nv s) v - along ⟨s.1.y - s.2.y, s.2.x - s.1.x⟩ v| ≤ 6 * (u * M * (|s.2.x - s.1.x| + |s.2.y - s.1.y|)) := by
  have e1 := rq_err_add (s.1.y - s.2.y)
  have e2 := rq_err_add (s.2.x - s.1.x)
  have e3 := dl_err (n := nv s) hv
  rw [abs_sub_comm s.2.y] at *
  have hN : 1 / 2 ^ 900 ≤ |s.2.x - s.1.x| + |s.1.y - s.2.y| := by
    have := abs_nonneg (s.2.x - s.1.x)
    have := abs_nonneg (s.1.y - s.2.y)
    rcases h with h | h <;> linarith
  have t := tiny_lt hM hN
  have t' := tiny_lt (M := 1) (N := |s.2.x - s.1.x| + |s.1.y - s.2.y|) (by norm_num) hN
  have hM0 : 0 < M := lt_of_lt_of_le (by positivity) hM
  have hu := u_pos
  have hu' := u_le
  have he := eta_pos
  unfold nrm nv at e3
  unfold nv
  unfold along at *
  simp only at *
  generalize s.1.y - s.2.y = a at *
  generalize s.2.x - s.1.x = b at *
  generalize dl _ v = d at *
  generalize rq a = a' at *
  generalize rq b = b' at *
  have f1 : |a' * v.x - a * v.x| ≤ M * (u * |a| + eta) := by
    rw [← sub_mul, abs_mul, mul_comm]
    exact mul_le_mul hv.1 e1 (abs_nonneg _) hM0.le
  have f2 : |b' * v.y - b * v.y| ≤ M * (u * |b| + eta) := by
    rw [← sub_mul, abs_mul, mul_comm]
    exact mul_le_mul hv.2 e2 (abs_nonneg _) hM0.le
  have g1 : |a'| ≤ |a| + (u * |a| + eta) := by
    have := abs_add_le (a' - a) a; rw [sub_add_cancel] at this; linarith
  have g2 : |b'| ≤ |b| + (u * |b| + eta) := by
    have := abs_add_le (b' - b) b; rw [sub_add_cancel] at this; linarith
  have tri : |d - (a * v.x + b * v.y)| ≤
      |d - (a' * v.x + b' * v.y)| + (|a' * v.x - a * v.x| + |b' * v.y - b * v.y|) := by
    have i1 := abs_add_le (d - (a' * v.x + b' * v.y)) (a' * v.x - a * v.x + (b' * v.y - b * v.y))
    have i2 := abs_add_le (a' * v.x - a * v.x) (b' * v.y - b * v.y)
    have : d - (a' * v.x + b' * v.y) + (a' * v.x - a * v.x + (b' * v.y - b * v.y)) = d - (a * v.x + b * v.y) := by ring
    rw [this] at i1
    linarith only [i1, i2]
  set N := |b| + |a| with hNd
  have huM : 0 < u * M := mul_pos hu hM0
  have g3 : 3 * u * M * (|a'| + |b'|) ≤ 3 * (u * M) * (N + (u * N + 2 * eta)) := by
    have : |a'| + |b'| ≤ N + (u * N + 2 * eta) := by
      rw [hNd, mul_add]; linarith only [g1, g2]
    have := mul_le_mul_of_nonneg_left this (by linarith : 0 ≤ 3 * (u * M))
    linarith only [this]
  have g4 : u * N + 2 * eta ≤ N / 10 := by
    have : u * N ≤ 1 / 1000000 * N := mul_le_mul_of_nonneg_right hu' (le_trans (by positivity) hN)
    have h1 : u * 1 * N = u * N := by ring
    rw [h1] at t'
    linarith only [this, t', he]
  have g5 := mul_le_mul_of_nonneg_left g4 (by linarith : 0 ≤ 3 * (u * M))
  have g6 : M * (u * |a| + eta) + M * (u * |b| + eta) = u * M * N + 2 * (M * eta) := by rw [hNd]; ring
  have g7 : 100 * (M * eta) ≤ u * M * N := by
    have h1 : u * 1 * N = u * N := by ring
    rw [h1] at t'
    have := mul_le_mul_of_nonneg_left t'.le hM0.le
    linarith only [this]
  have g8 : 3 * (u * M) * (N + (u * N + 2 * eta)) = 3 * (u * M * N) + 3 * (u * M) * (u * N + 2 * eta) := by ring
  have g9 : 3 * (u * M) * (N / 10) = 3 / 10 * (u * M * N) := by ring
  linarith only [tri, f1, f2, e3, g3, g5, g6, g7, g8, g9, t, he]

/-- If the computed intervals overlap, then the other polygon nearly reaches the line through the side. -/
theorem reaches_of_overlapOn {A B : List (Pt ℚ)} {M : ℚ} {s : Pt ℚ × Pt ℚ} (bA : ∀ v ∈ A, Bnd M v) (bB : ∀ v ∈ B, Bnd M v)
    (hM : 1 / 2 ^ 100 ≤ M) (h : 1 / 2 ^ 900 ≤ |s.2.x - s.1.x| ∨ 1 / 2 ^ 900 ≤ |s.2.y - s.1.y|)
    (hs : ∀ v ∈ A, 0 ≤ orient s.1 s.2 v) (ho : OverlapOn (nv s) A B) : Reaches M s.1 s.2 B := by
  obtain ⟨_, v, hv, w, hw, hlt⟩ := ho
  refine ⟨w, hw, ?_⟩
  have e1 := (abs_le.1 (dl_nv_err (bA v hv) hM h)).1
  have e2 := (abs_le.1 (dl_nv_err (bB w hw) hM h)).2
  rw [along_axis] at e1 e2
  have h1 := hs v hv
  have e3 : M / 2 ^ 49 * (|s.2.x - s.1.x| + |s.2.y - s.1.y|) = 16 * (u * M * (|s.2.x - s.1.x| + |s.2.y - s.1.y|)) := by
    unfold u; ring
  have h2 : 0 ≤ u * M * (|s.2.x - s.1.x| + |s.2.y - s.1.y|) :=
    mul_nonneg (mul_nonneg u_pos.le (le_trans (by positivity) hM)) (by positivity)
  rw [e3]
  linarith

end Celltree.Fl
