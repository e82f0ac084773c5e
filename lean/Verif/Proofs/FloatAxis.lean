import Verif.Proofs.FloatTol
import Verif.Proofs.FloatEdges
import Verif.Spec.FloatAxis

/-!
# Networks of edges along the axes in binary64
-/

namespace Celltree.Fl

theorem PlainEdge.side {a b : Pt ℚ} (h : PlainEdge a b) (hr : IsRep a.x) : AxisSide a b := ⟨h.bnd_a, h.bnd_b, hr, h.dir⟩

theorem PlainEdge.ne {a b : Pt ℚ} (h : PlainEdge a b) : a ≠ b := by
  rintro rfl
  have : (0 : ℚ) < 1 / 2 ^ 200 := by positivity
  rcases h.dir with ⟨_, g⟩ | ⟨_, g⟩ <;> rw [sub_self, abs_zero] at g <;> linarith

/-- A number between two others divides the distance. -/
theorem divides {x y p : ℚ} (hne : x ≠ y) (h : min x y ≤ p ∧ p ≤ max x y) : ∃ s, 0 ≤ s ∧ s ≤ 1 ∧ p = x + s * (y - x) := by
  have hd : y - x ≠ 0 := sub_ne_zero.2 (Ne.symm hne)
  refine ⟨(p - x) / (y - x), ?_, ?_, by field_simp; ring⟩
  · rcases lt_or_gt_of_ne hne with g | g
    · rw [min_eq_left g.le] at h
      exact div_nonneg (by linarith) (by linarith)
    · rw [max_eq_left g.le] at h
      exact div_nonneg_of_nonpos (by linarith) (by linarith)
  · rcases lt_or_gt_of_ne hne with g | g
    · rw [max_eq_right g.le] at h
      exact (div_le_one (by linarith)).2 (by linarith)
    · rw [min_eq_right g.le] at h
      exact (div_le_one_of_neg (by linarith)).2 (by linarith)

theorem PlainEdge.nearSeg {a b : Pt ℚ} (h : PlainEdge a b) (hr : IsRep a.x) {tol : ℚ} (ht : 1 / 2 ^ 200 ≤ tol) {p : Pt ℚ}
    (hn : NearF tol p (a, b)) : NearSeg ((1 + 1 / 2 ^ 47) * tol) a b p := by
  have h0 : (0 : ℚ) < 1 / 2 ^ 200 := by positivity
  have hne := h.ne
  rcases (h.side hr).near_sound ht hn with ⟨h1, h2, h3, h4⟩ | ⟨h1, h2, h3, h4⟩
  · obtain ⟨s, s0, s1, hs⟩ := divides (x := a.x) (y := b.x) (fun e => hne (Pt.ext' e h3.symm)) ⟨h1, h2⟩
    refine ⟨s, s0, s1, Or.inl ⟨hs, ?_⟩⟩
    simp only [lineAt, h3, sub_self, mul_zero, add_zero]
    rwa [abs_sub_comm]
  · obtain ⟨s, s0, s1, hs⟩ := divides (x := a.y) (y := b.y) (fun e => hne (Pt.ext' h3.symm e)) ⟨h1, h2⟩
    refine ⟨s, s0, s1, Or.inr ⟨hs, ?_⟩⟩
    simp only [lineAt, h3, sub_self, mul_zero, add_zero]
    rwa [abs_sub_comm]

/-! ## The default tolerance -/

variable {L : List (Pt ℚ)} {M : ℚ}

/-- The tolerance of the whole network is small. -/
theorem globalTolerance_up (hM : 1 ≤ M) (hM' : M ≤ 2 ^ 199) (hL : ∀ q ∈ L, Bnd M q) (hne : L ≠ []) :
    ∃ τ, globalTolerance Fl.env (L.map fp) = .ok (fin τ) ∧ 0 ≤ τ ∧ τ ≤ M / 2 ^ 37 := by
  have hM0 : 0 < M := by linarith
  have ex : (L.map fp).map Pt.x = (L.map Pt.x).map fin := by simp [fp, Function.comp_def]
  have ey : (L.map fp).map Pt.y = (L.map Pt.y).map fin := by simp [fp, Function.comp_def]
  obtain ⟨x1, hx1, mx1, gx1⟩ := maxList_fl (l := L.map Pt.x) (by simpa using hne)
  obtain ⟨x0, hx0, mx0, gx0⟩ := minList_fl (l := L.map Pt.x) (by simpa using hne)
  obtain ⟨y1, hy1, my1, gy1⟩ := maxList_fl (l := L.map Pt.y) (by simpa using hne)
  obtain ⟨y0, hy0, my0, gy0⟩ := minList_fl (l := L.map Pt.y) (by simpa using hne)
  have bd : ∀ {s : ℚ}, s ∈ L.map Pt.x ∨ s ∈ L.map Pt.y → -M ≤ s ∧ s ≤ M := by
    intro s hs
    simp only [List.mem_map] at hs
    rcases hs with ⟨q, hq, rfl⟩ | ⟨q, hq, rfl⟩
    · exact abs_le.1 (hL q hq).1
    · exact abs_le.1 (hL q hq).2
  have bx1 := bd (.inl mx1)
  have bx0 := bd (.inl mx0)
  have by1 := bd (.inr my1)
  have by0 := bd (.inr my0)
  have hdx0 : 0 ≤ x1 - x0 := by have := gx1 x0 mx0; linarith
  have hdy0 : 0 ≤ y1 - y0 := by have := gy1 y0 my0; linarith
  have h2M : 2 * M ≤ 2 ^ 200 := by
    rw [show (200 : Nat) = 199 + 1 from rfl, pow_succ]
    generalize (2 : ℚ) ^ 199 = T at hM'
    linarith
  have hdx := sub_fin (a := x1) (b := x0) (k := 200) (by norm_num) (abs_le_of hdx0 (by linarith only [h2M, bx1.2, bx0.1]))
  have hdy := sub_fin (a := y1) (b := y0) (k := 200) (by norm_num) (abs_le_of hdy0 (by linarith only [h2M, by1.2, by0.1]))
  obtain ⟨m, f, hm, hf, m0, m1, f0, f1⟩ := tol_consts
  have t0 : (1 : ℚ) / 2 ^ 1000 ≤ 1 / 2 ^ 50 := inv_pow_le (by norm_num)
  have t1 : (1 : ℚ) / 2 ^ 50 ≤ 1 := by norm_num
  obtain ⟨X0, X1⟩ := rq_up (x := x1 - x0) (R := 2 * M) hdx0 (by linarith) ((t0.trans t1).trans (by linarith))
  obtain ⟨Y0, Y1⟩ := rq_up (x := y1 - y0) (R := 2 * M) hdy0 (by linarith) ((t0.trans t1).trans (by linarith))
  set E := max (rq (x1 - x0)) (rq (y1 - y0)) with hE
  have hE0 : 0 ≤ E := X0.trans (le_max_left _ _)
  have hE1 : E ≤ 101 / 100 * (2 * M) := max_le X1 Y1
  have hf0 : 0 ≤ f := le_trans (by norm_num) f0
  have hfE : f * E ≤ 1 / 2 ^ 39 * (101 / 100 * (2 * M)) := mul_le_mul f1 hE1 hE0 (by norm_num)
  obtain ⟨Z0, Z1⟩ := rq_up (mul_nonneg hf0 hE0) hfE (by
    refine t0.trans ?_
    linarith)
  have hmul := mul_fin (a := f) (b := E) (k := 200) (by norm_num) (abs_le_of (mul_nonneg hf0 hE0) (by
    refine hfE.trans (le_trans ?_ h2M)
    linarith only [hM0]))
  refine ⟨max m (rq (f * E)), ?_, m0.trans (le_max_left _ _), ?_⟩
  · unfold globalTolerance
    rw [ex, ey, hx1, hx0, hy1, hy0]
    simp only [ok_bind]
    rw [hdx, hdy, hm, hf, fmax_fin, ← hE, hmul, fmax_fin]
  · refine max_le ?_ ?_
    · refine m1.trans ?_
      linarith only [hM]
    · linarith only [Z1, hM0]

/-- The two sides of a widened box. -/
theorem widen_up {τ p q S : ℚ} (hM : 1 ≤ M) (hM' : M ≤ 2 ^ 199) (hp : |p| ≤ M) (hq : |q| ≤ M) (h0 : 0 ≤ τ) (h1 : τ ≤ M / 2 ^ 37)
    (hS : |p - q| ≤ S) :
    ∃ lo hi, fmin (fin p - fin τ) (fin q - fin τ) = fin lo ∧ fmax (fin p + fin τ) (fin q + fin τ) = fin hi ∧ lo ≤ hi ∧
      hi - lo ≤ S + M / 2 ^ 35 := by
  have hM0 : 0 < M := by linarith
  have hu := u_pos
  have h2M : 2 * M ≤ 2 ^ 200 := by
    rw [show (200 : Nat) = 199 + 1 from rfl, pow_succ]
    generalize (2 : ℚ) ^ 199 = T at hM'
    linarith
  have heta : eta ≤ u * M := by
    refine le_trans ?_ (mul_le_mul_of_nonneg_left hM hu.le)
    unfold eta u
    rw [mul_one]
    exact inv_le_inv_pow (by norm_num)
  have hτ : |τ| ≤ M := by rw [abs_of_nonneg h0]; linarith
  have bnd : ∀ {s σ : ℚ}, |s| ≤ M → |σ| ≤ M → |s + σ| ≤ 2 ^ 200 ∧ |rq (s + σ) - (s + σ)| ≤ 3 * (u * M) := by
    intro s σ hs hσ
    have h3 : |s + σ| ≤ 2 * M := (abs_add_le _ _).trans (by linarith)
    refine ⟨h3.trans h2M, (rq_err_add _).trans ?_⟩
    have := mul_le_mul_of_nonneg_left h3 hu.le
    linarith
  have hτn : |-τ| ≤ M := by rwa [abs_neg]
  have p1 := bnd hp hτn
  have p2 := bnd hp hτ
  have q1 := bnd hq hτn
  have q2 := bnd hq hτ
  rw [← sub_eq_add_neg] at p1 q1
  rw [sub_fin (by norm_num) p1.1, sub_fin (by norm_num) q1.1, add_fin (by norm_num) p2.1, add_fin (by norm_num) q2.1,
    fmin_fin, fmax_fin]
  have e1 := abs_le.1 p1.2
  have e2 := abs_le.1 p2.2
  have e3 := abs_le.1 q1.2
  have e4 := abs_le.1 q2.2
  have hS' := abs_le.1 hS
  have hS0 : 0 ≤ S := (abs_nonneg _).trans hS
  have huM : u * M ≤ M / 2 ^ 50 := by
    have : u ≤ 1 / 2 ^ 50 := by unfold u; norm_num
    calc u * M ≤ 1 / 2 ^ 50 * M := mul_le_mul_of_nonneg_right this hM0.le
      _ = _ := by ring
  refine ⟨_, _, rfl, rfl, ?_, ?_⟩
  · exact (min_le_left _ _).trans ((rq_mono (by linarith)).trans (le_max_left _ _))
  · have hi : max (rq (p + τ)) (rq (q + τ)) ≤ max p q + τ + 3 * (M / 2 ^ 50) :=
      max_le (by linarith [le_max_left p q]) (by linarith [le_max_right p q])
    have lo : min p q - τ - 3 * (M / 2 ^ 50) ≤ min (rq (p - τ)) (rq (q - τ)) :=
      le_min (by linarith [min_le_left p q]) (by linarith [min_le_right p q])
    have hpq : max p q - min p q ≤ S := by
      rcases le_total p q with g | g
      · rw [max_eq_right g, min_eq_left g]; linarith
      · rw [max_eq_left g, min_eq_right g]; linarith
    linarith

end Celltree.Fl
