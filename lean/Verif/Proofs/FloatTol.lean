import Verif.Proofs.FloatRectPoint
import Verif.Proofs.FloatSqrt
import Verif.Proofs.FloatWiden
import Verif.Spec.FloatSize

/-!
# The default tolerance in binary64
-/

namespace Celltree.Fl

theorem rq_up {x R : ℚ} (h0 : 0 ≤ x) (h : x ≤ R) (hR : 1 / 2 ^ 1000 ≤ R) : 0 ≤ rq x ∧ rq x ≤ 101 / 100 * R := by
  have hu := u_pos
  have hu' := u_le
  have hR0 : 0 < R := lt_of_lt_of_le (by positivity) hR
  have := (abs_le.1 (rq_abs (x := x) (by rwa [abs_of_nonneg h0]) hR)).2
  have : u * R ≤ 1 / 1000000 * R := mul_le_mul_of_nonneg_right hu' hR0.le
  exact ⟨rq_nonneg h0, by linarith⟩

/-- The diagonal of a rectangle. -/
theorem diagonal_fl {c : Box ℚ} {S : ℚ} (hx : c.xmin ≤ c.xmax) (hy : c.ymin ≤ c.ymax) (hw : c.xmax - c.xmin ≤ S) (hh : c.ymax - c.ymin ≤ S)
    (hS : 1 / 2 ^ 200 ≤ S) (hS' : S ≤ 2 ^ 201) : ∃ r, (bboxDistance Fl.env (fbox c)).2.2 = fin r ∧ 0 ≤ r ∧ r ≤ 152 / 100 * S := by
  have hu' := u_le
  have hS0 : 0 < S := lt_of_lt_of_le (by positivity) hS
  have t1 : (1 : ℚ) / 2 ^ 1000 ≤ 1 / 2 ^ 200 := inv_pow_le (by norm_num)
  have t2 : (1 : ℚ) / 2 ^ 500 ≤ 1 / 2 ^ 207 := inv_pow_le (by norm_num)
  have t3 : (1 : ℚ) / 2 ^ 207 = 1 / 128 * (1 / 2 ^ 200) := by norm_num
  have SS : 1 / 2 ^ 400 ≤ S * S := by rw [inv_pow_add 200 200]; exact mul_le_mul hS hS (by positivity) hS0.le
  have t4 : (1 : ℚ) / 2 ^ 1000 ≤ 1 / 2 ^ 400 := inv_pow_le (by norm_num)
  have SS' : S * S ≤ 2 ^ 402 := by
    calc S * S ≤ 2 ^ 201 * 2 ^ 201 := mul_le_mul hS' hS' hS0.le (by positivity)
      _ = _ := by rw [← pow_add]
  have p1 : (2 : ℚ) ^ 405 = 8 * 2 ^ 402 := by rw [show 405 = 3 + 402 from rfl, pow_add]; norm_num
  have p402 : (0 : ℚ) < 2 ^ 402 := by positivity
  have up : ∀ {x Q P : ℚ}, x ≤ 3 * Q → Q ≤ P → 0 < P → x ≤ 8 * P := fun h1 h2 h3 => by linarith
  have Q0 : 0 < S * S := by positivity
  obtain ⟨x0, x1⟩ := rq_up (sub_nonneg.2 hx) hw (t1.trans hS)
  obtain ⟨y0, y1⟩ := rq_up (sub_nonneg.2 hy) hh (t1.trans hS)
  have ex : fin c.xmax - fin c.xmin = fin (rq (c.xmax - c.xmin)) :=
    sub_fin (k := 201) (by norm_num) (abs_le_of (sub_nonneg.2 hx) (hw.trans hS'))
  have ey : fin c.ymax - fin c.ymin = fin (rq (c.ymax - c.ymin)) :=
    sub_fin (k := 201) (by norm_num) (abs_le_of (sub_nonneg.2 hy) (hh.trans hS'))
  set X := rq (c.xmax - c.xmin)
  set Y := rq (c.ymax - c.ymin)
  have XX : X * X ≤ 10201 / 10000 * (S * S) := by
    calc X * X ≤ (101 / 100 * S) * (101 / 100 * S) := mul_le_mul x1 x1 x0 (by positivity)
      _ = _ := by ring
  have YY : Y * Y ≤ 10201 / 10000 * (S * S) := by
    calc Y * Y ≤ (101 / 100 * S) * (101 / 100 * S) := mul_le_mul y1 y1 y0 (by positivity)
      _ = _ := by ring
  have lo : 1 / 2 ^ 1000 ≤ 10201 / 10000 * (S * S) := by
    have : 0 < S * S := by positivity
    refine (t4.trans SS).trans ?_
    linarith
  obtain ⟨xx0, xx1⟩ := rq_up (mul_nonneg x0 x0) XX lo
  obtain ⟨yy0, yy1⟩ := rq_up (mul_nonneg y0 y0) YY lo
  have exx : fin X * fin X = fin (rq (X * X)) :=
    mul_fin (k := 405) (by norm_num) (abs_le_of (mul_nonneg x0 x0) (by rw [p1]; exact up (XX.trans (by linarith only [Q0])) SS' p402))
  have eyy : fin Y * fin Y = fin (rq (Y * Y)) :=
    mul_fin (k := 405) (by norm_num) (abs_le_of (mul_nonneg y0 y0) (by rw [p1]; exact up (YY.trans (by linarith only [Q0])) SS' p402))
  have hsum : rq (X * X) + rq (Y * Y) ≤ 21 / 10 * (S * S) := by
    have : 0 < S * S := by positivity
    linarith
  have esum : fin (rq (X * X)) + fin (rq (Y * Y)) = fin (rq (rq (X * X) + rq (Y * Y))) :=
    add_fin (k := 405) (by norm_num) (abs_le_of (add_nonneg xx0 yy0) (by rw [p1]; exact up (hsum.trans (by linarith only [Q0])) SS' p402))
  obtain ⟨z0, z1⟩ := rq_up (add_nonneg xx0 yy0) hsum (by
    have : 0 < S * S := by positivity
    refine (t4.trans SS).trans ?_
    linarith)
  have hbig : (2 : ℚ) ^ 405 ≤ 2 ^ 900 := pow_le_pow_right₀ (by norm_num) (by norm_num)
  obtain ⟨r, e, r0, r1, _⟩ := sqrt_fl z0 (by
    refine le_trans ?_ hbig
    rw [p1]; exact up (z1.trans (by linarith only [Q0])) SS' p402)
  refine ⟨r, ?_, r0, ?_⟩
  · unfold bboxDistance fbox
    simp only
    rw [ex, ey, exx, eyy, esum, e]
  · have := r1 (3 / 2 * S) (by positivity) (by
      refine z1.trans ?_
      have : 0 < S * S := by positivity
      linarith)
    have h2 : u * (3 / 2 * S) ≤ 1 / 1000000 * (3 / 2 * S) := mul_le_mul_of_nonneg_right hu' (by positivity)
    have h3 : (1 : ℚ) / 2 ^ 500 ≤ 1 / 128 * S := by rw [t3] at t2; linarith
    linarith

/-- The default tolerance, from the boxes. -/
theorem boxes_tolerance {t : CellTree Fl} {S : ℚ} (hS : 1 / 2 ^ 200 ≤ S) (hS' : S ≤ 2 ^ 201)
    (hdist : t.bbDistances = t.data.bbCoords.map (bboxDistance Fl.env)) (hne : t.data.bbCoords ≠ [])
    (hbox : ∀ b ∈ t.data.bbCoords, ∃ c, b = fbox c ∧ c.xmin ≤ c.xmax ∧ c.ymin ≤ c.ymax ∧ c.xmax - c.xmin ≤ S ∧
      c.ymax - c.ymin ≤ S) :
    ∃ tol, t.tolerance Fl.env none = .ok (fin tol) ∧ 1 / 2 ^ 50 ≤ tol ∧ tol ≤ max (1 / 2 ^ 49) (S / 2 ^ 38) := by
  have hS0 : 0 < S := lt_of_lt_of_le (by positivity) hS
  have hd : ∀ b ∈ t.data.bbCoords, ∃ r, (bboxDistance Fl.env b).2.2 = fin r ∧ 0 ≤ r ∧ r ≤ 152 / 100 * S := by
    intro b hb
    obtain ⟨c, rfl, g2, g3, g4, g5⟩ := hbox b hb
    exact diagonal_fl g2 g3 g4 g5 hS hS'
  obtain ⟨ds, hds, hds'⟩ : ∃ ds : List ℚ, t.data.bbCoords.map (fun b => (bboxDistance Fl.env b).2.2) = ds.map fin ∧
      ∀ r ∈ ds, 0 ≤ r ∧ r ≤ 152 / 100 * S := by
    generalize t.data.bbCoords = L at hd
    induction L with
    | nil => exact ⟨[], rfl, by simp⟩
    | cons b L ih =>
      obtain ⟨ds, h1, h2⟩ := ih fun b hb => hd b (List.mem_cons_of_mem _ hb)
      obtain ⟨r, g1, g2⟩ := hd b (by simp)
      refine ⟨r :: ds, by rw [List.map_cons, List.map_cons, h1, g1], ?_⟩
      intro x hx
      rcases List.mem_cons.1 hx with rfl | hx
      · exact g2
      · exact h2 x hx
  have hdne : ds ≠ [] := by
    rintro rfl
    exact hne (by simpa using hds)
  obtain ⟨m, hm1, hm2, _⟩ := maxList_fl hdne
  obtain ⟨m0, m1⟩ := hds' m hm2
  obtain ⟨μ, f, e1, e2, μ0, μ1, f0, f1⟩ := tol_consts
  have μ2 : 1 / 2 ^ 50 ≤ μ := by
    have e3 : Fl.env.minTol = fin (rq (1 / 1000000000000000)) := rnd_fin ((abs_le_of (k := 0) (by norm_num) (by norm_num)).trans
      (pow_le_big (by norm_num)))
    rw [e1] at e3
    have := Fl.fin.inj e3
    rw [this]
    exact le_rq (isRep_two_pow_inv (by norm_num)) (by norm_num)
  have f00 : 0 ≤ f := le_trans (by norm_num) f0
  have fm : f * m ≤ 152 / 100 * (S / 2 ^ 39) := by
    calc f * m ≤ 1 / 2 ^ 39 * (152 / 100 * S) := mul_le_mul f1 m1 m0 (by positivity)
      _ = _ := by ring
  have big : f * m ≤ 2 ^ 201 := by
    refine fm.trans ?_
    have : S / 2 ^ 39 * (152 / 100) ≤ S * 1 := by
      have : S / 2 ^ 39 * (152 / 100) = S * (152 / 100 / 2 ^ 39) := by ring
      rw [this]
      exact mul_le_mul_of_nonneg_left (by norm_num) hS0.le
    linarith
  have low : (1 : ℚ) / 2 ^ 1000 ≤ 152 / 100 * (S / 2 ^ 39) := by
    have t1 : (1 : ℚ) / 2 ^ 1000 ≤ 1 / 2 ^ 239 := inv_pow_le (by norm_num)
    have t2 : (1 : ℚ) / 2 ^ 239 = 1 / 2 ^ 200 / 2 ^ 39 := by norm_num
    have t3 : (1 : ℚ) / 2 ^ 200 / 2 ^ 39 ≤ S / 2 ^ 39 := div_le_div_of_nonneg_right hS (by positivity)
    have t4 : 0 < S / 2 ^ 39 := by positivity
    rw [t2] at t1
    linarith
  obtain ⟨z0, z1⟩ := rq_up (mul_nonneg f00 m0) fm low
  refine ⟨max μ (rq (f * m)), ?_, μ2.trans (le_max_left _ _), ?_⟩
  · unfold CellTree.tolerance defaultTolerance
    simp only
    rw [hdist, List.map_map]
    have : ((fun d : Fl × Fl × Fl => d.2.2) ∘ bboxDistance Fl.env) = fun b => (bboxDistance Fl.env b).2.2 := rfl
    rw [this, hds, hm1, ok_bind, e1, e2, mul_fin (k := 201) (by norm_num) (abs_le_of (mul_nonneg f00 m0) big), fmax_fin]
  · refine max_le_max μ1 (z1.trans ?_)
    have : S / 2 ^ 38 = 2 * (S / 2 ^ 39) := by ring
    have t4 : 0 < S / 2 ^ 39 := by positivity
    rw [this]; linarith

end Celltree.Fl
