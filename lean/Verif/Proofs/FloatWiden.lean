import Verif.Proofs.FloatBuild
import Verif.Proofs.FloatEdges

/-!
# The widened boxes of edges in binary64
-/

set_option linter.unusedSectionVars false

namespace Celltree
namespace Fl

theorem foldl_fmax_fl (l : List ℚ) (a : ℚ) : ∃ m, (l.map fin).foldl fmax (fin a) = fin m ∧ m ∈ a :: l ∧ ∀ x ∈ a :: l, x ≤ m := by
  induction l generalizing a with
  | nil => exact ⟨a, rfl, by simp, by simp⟩
  | cons b l ih =>
    obtain ⟨m, h1, h2, h3⟩ := ih (max a b)
    refine ⟨m, ?_, ?_, ?_⟩
    · rw [List.map_cons, List.foldl_cons, fmax_fin, h1]
    · rcases List.mem_cons.1 h2 with h | h
      · rcases max_choice a b with h' | h' <;> simp [h, h']
      · simp [h]
    · have h4 := h3 (max a b) (by simp)
      intro x hx
      rcases List.mem_cons.1 hx with rfl | hx
      · exact (le_max_left _ _).trans h4
      · rcases List.mem_cons.1 hx with rfl | hx
        · exact (le_max_right _ _).trans h4
        · exact h3 x (by simp [hx])

theorem foldl_fmin_fl (l : List ℚ) (a : ℚ) : ∃ m, (l.map fin).foldl fmin (fin a) = fin m ∧ m ∈ a :: l ∧ ∀ x ∈ a :: l, m ≤ x := by
  induction l generalizing a with
  | nil => exact ⟨a, rfl, by simp, by simp⟩
  | cons b l ih =>
    obtain ⟨m, h1, h2, h3⟩ := ih (min a b)
    refine ⟨m, ?_, ?_, ?_⟩
    · rw [List.map_cons, List.foldl_cons, fmin_fin, h1]
    · rcases List.mem_cons.1 h2 with h | h
      · rcases min_choice a b with h' | h' <;> simp [h, h']
      · simp [h]
    · have h4 := h3 (min a b) (by simp)
      intro x hx
      rcases List.mem_cons.1 hx with rfl | hx
      · exact h4.trans (min_le_left _ _)
      · rcases List.mem_cons.1 hx with rfl | hx
        · exact h4.trans (min_le_right _ _)
        · exact h3 x (by simp [hx])

theorem maxList_fl {l : List ℚ} (hl : l ≠ []) : ∃ m, maxList (l.map fin) = .ok (fin m) ∧ m ∈ l ∧ ∀ x ∈ l, x ≤ m := by
  obtain ⟨a, l, rfl⟩ := List.exists_cons_of_ne_nil hl
  obtain ⟨m, h1, h2, h3⟩ := foldl_fmax_fl l a
  exact ⟨m, by rw [List.map_cons]; exact congrArg Except.ok h1, h2, h3⟩

theorem minList_fl {l : List ℚ} (hl : l ≠ []) : ∃ m, minList (l.map fin) = .ok (fin m) ∧ m ∈ l ∧ ∀ x ∈ l, m ≤ x := by
  obtain ⟨a, l, rfl⟩ := List.exists_cons_of_ne_nil hl
  obtain ⟨m, h1, h2, h3⟩ := foldl_fmin_fl l a
  exact ⟨m, by rw [List.map_cons]; exact congrArg Except.ok h1, h2, h3⟩

/-- The constants of the tolerance. -/
theorem tol_consts : ∃ m f : ℚ, Fl.env.minTol = fin m ∧ Fl.env.tolFactor = fin f ∧ 0 ≤ m ∧ m ≤ 1 / 2 ^ 49 ∧
    999 / 1000 * (1 / 1000000000000) ≤ f ∧ f ≤ 1 / 2 ^ 39 := by
  have e1 : Fl.env.minTol = fin (rq (1 / 1000000000000000)) := rnd_fin ((abs_le_of (k := 0) (by norm_num) (by norm_num)).trans
    (pow_le_big (by norm_num)))
  have e2 : Fl.env.tolFactor = fin (rq (1 / 1000000000000)) := rnd_fin ((abs_le_of (k := 0) (by norm_num) (by norm_num)).trans
    (pow_le_big (by norm_num)))
  refine ⟨_, _, e1, e2, rq_nonneg (by norm_num), ?_, ?_, ?_⟩
  · exact rq_le (isRep_two_pow_inv (by norm_num)) (by norm_num)
  · have := (rq_rel' (x := 1 / 1000000000000) ((inv_le_inv_pow (j := 100) (by norm_num)).trans (by norm_num))).1
    refine le_trans ?_ this
    unfold u; norm_num
  · exact rq_le (isRep_two_pow_inv (by norm_num)) (by norm_num)

variable {M : ℚ} {L : List (Pt ℚ)}

/-- The tolerance of a network with an extent of at least `M / 256`. -/
theorem globalTolerance_fl (hM : 1 / 2 ^ 40 ≤ M) (hM' : M ≤ 2 ^ 399) (hL : ∀ q ∈ L, Bnd M q)
    (hext : ∃ a ∈ L, ∃ b ∈ L, a.x + M / 256 ≤ b.x ∨ a.y + M / 256 ≤ b.y) :
    ∃ τ, globalTolerance Fl.env (L.map fp) = .ok (fin τ) ∧ 997 / 1000 * (M / 256) * (1 / 1000000000000) ≤ τ ∧ τ ≤ M / 256 := by
  obtain ⟨a, ha, b, hb, hab⟩ := hext
  have hM0 : 0 < M := lt_of_lt_of_le (by norm_num) hM
  have hu := u_pos
  have hu' := u_le
  have hne : L ≠ [] := List.ne_nil_of_mem ha
  have ex : (L.map fp).map Pt.x = (L.map Pt.x).map fin := by simp [fp, Function.comp_def]
  have ey : (L.map fp).map Pt.y = (L.map Pt.y).map fin := by simp [fp, Function.comp_def]
  obtain ⟨x1, hx1, mx1, gx1⟩ := maxList_fl (l := L.map Pt.x) (by simpa using hne)
  obtain ⟨x0, hx0, mx0, gx0⟩ := minList_fl (l := L.map Pt.x) (by simpa using hne)
  obtain ⟨y1, hy1, my1, gy1⟩ := maxList_fl (l := L.map Pt.y) (by simpa using hne)
  obtain ⟨y0, hy0, my0, gy0⟩ := minList_fl (l := L.map Pt.y) (by simpa using hne)
  have bd : ∀ {s : ℚ}, s ∈ L.map Pt.x ∨ s ∈ L.map Pt.y → -M ≤ s ∧ s ≤ M := by
    intro s hs
    simp only [List.mem_map] at hs
    rcases hs with ⟨q, hq, rfl⟩ | ⟨q, hq, rfl⟩
    · exact abs_le.1 (hL q hq).1
    · exact abs_le.1 (hL q hq).2
  have bx1 := bd (.inl mx1)
  have bx0 := bd (.inl mx0)
  have by1 := bd (.inr my1)
  have by0 := bd (.inr my0)
  have hdx0 : 0 ≤ x1 - x0 := by have := gx1 x0 mx0; linarith
  have hdy0 : 0 ≤ y1 - y0 := by have := gy1 y0 my0; linarith
  have h2M : 2 * M ≤ 2 ^ 400 := by
    rw [show (400 : Nat) = 399 + 1 from rfl, pow_succ]
    generalize (2 : ℚ) ^ 399 = T at hM'
    linarith
  have hdx := sub_fin (a := x1) (b := x0) (k := 400) (by norm_num) (abs_le_of hdx0 (by linarith only [h2M, bx1.2, bx0.1]))
  have hdy := sub_fin (a := y1) (b := y0) (k := 400) (by norm_num) (abs_le_of hdy0 (by linarith only [h2M, by1.2, by0.1]))
  obtain ⟨m, f, hm, hf, m0, m1, f0, f1⟩ := tol_consts
  -- the extent
  set E := max (rq (x1 - x0)) (rq (y1 - y0)) with hE
  have up : ∀ {d : ℚ}, 0 ≤ d → d ≤ 2 * M → rq d ≤ 3 * M := by
    intro d d0 d1
    have h1 := rq_mono d1
    have h2 := (rq_rel' (x := 2 * M) (by
      refine le_trans ?_ (show (1 : ℚ) / 2 ^ 40 ≤ 2 * M by linarith)
      exact inv_le_inv_pow (by norm_num))).2
    refine h1.trans (h2.trans ?_)
    have : u * M ≤ 1 / 1000000 * M := mul_le_mul_of_nonneg_right hu' hM0.le
    linarith only [this, hM0]
  have lo : ∀ {d : ℚ}, M / 256 ≤ d → 999 / 1000 * (M / 256) ≤ rq d := by
    intro d d1
    have h1 := rq_mono d1
    have h2 := (rq_rel' (x := M / 256) (by
      refine le_trans ?_ (show (1 : ℚ) / 2 ^ 48 ≤ M / 256 by rw [show (48 : Nat) = 40 + 8 from rfl, pow_add]; linarith)
      exact inv_le_inv_pow (by norm_num))).1
    refine le_trans ?_ h1
    refine le_trans ?_ h2
    have : u * (M / 256) ≤ 1 / 1000000 * (M / 256) := mul_le_mul_of_nonneg_right hu' (by positivity)
    linarith only [this, hM0]
  have hE3 : E ≤ 3 * M := max_le (up hdx0 (by linarith)) (up hdy0 (by linarith))
  have hE1 : 999 / 1000 * (M / 256) ≤ E := by
    rcases hab with h | h
    · refine le_trans (lo ?_) (le_max_left _ _)
      have h1 := gx1 b.x (List.mem_map_of_mem hb)
      have h2 := gx0 a.x (List.mem_map_of_mem ha)
      linarith
    · refine le_trans (lo ?_) (le_max_right _ _)
      have h1 := gy1 b.y (List.mem_map_of_mem hb)
      have h2 := gy0 a.y (List.mem_map_of_mem ha)
      linarith
  have hE0 : 0 ≤ E := le_trans (by positivity) hE1
  have hf0 : 0 ≤ f := le_trans (by norm_num) f0
  have hfE : f * E ≤ 1 / 2 ^ 39 * (3 * M) := mul_le_mul f1 hE3 hE0 (by norm_num)
  have hfE1 : 998 / 1000 * (M / 256) * (1 / 1000000000000) ≤ f * E := by
    refine le_trans ?_ (mul_le_mul f0 hE1 (by positivity) hf0)
    linarith only [hM0]
  have hmul := mul_fin (a := f) (b := E) (k := 400) (by norm_num) (abs_le_of (mul_nonneg hf0 hE0) (by
    refine hfE.trans (le_trans ?_ h2M)
    linarith only [hM0]))
  have hlow : (1 : ℚ) / 2 ^ 1000 ≤ f * E := by
    refine le_trans ?_ hfE1
    refine le_trans (inv_le_inv_pow (j := 100) (by norm_num)) ?_
    linarith only [hM]
  have hr := rq_rel' hlow
  have r1 : u * (f * E) ≤ 1 / 1000000 * (f * E) := mul_le_mul_of_nonneg_right hu' (mul_nonneg hf0 hE0)
  refine ⟨max m (rq (f * E)), ?_, ?_, ?_⟩
  · unfold globalTolerance
    rw [ex, ey, hx1, hx0, hy1, hy0]
    simp only [ok_bind]
    rw [hdx, hdy, hm, hf, fmax_fin, ← hE, hmul, fmax_fin]
  · refine le_trans ?_ (le_max_right _ _)
    linarith only [hr.1, r1, hfE1, hM0]
  · refine max_le ?_ ?_
    · refine m1.trans ?_
      linarith only [hM]
    · linarith only [hr.2, r1, hfE, hM0]

/-- One side of a widened box. -/
theorem widen_fl {τ p q : ℚ} (hM : 1 / 2 ^ 40 ≤ M) (hM' : M ≤ 2 ^ 399) (hp : |p| ≤ M) (hq : |q| ≤ M)
    (h1 : 997 / 1000 * (M / 256) * (1 / 1000000000000) ≤ τ) (h2 : τ ≤ M / 256) :
    ∃ lo hi, fmin (fin p - fin τ) (fin q - fin τ) = fin lo ∧ fmax (fin p + fin τ) (fin q + fin τ) = fin hi ∧ |lo| ≤ 2 * M ∧
      |hi| ≤ 2 * M ∧ lo + 2 * M / 2 ^ 48 ≤ hi := by
  have hM0 : 0 < M := lt_of_lt_of_le (by norm_num) hM
  have hu := u_pos
  have hu' := u_le
  have hτ0 : 0 ≤ τ := le_trans (by positivity) h1
  have h2M : 2 * M ≤ 2 ^ 400 := by
    rw [show (400 : Nat) = 399 + 1 from rfl, pow_succ]
    generalize (2 : ℚ) ^ 399 = T at hM'
    linarith
  have heta : eta ≤ u * M := by
    refine le_trans ?_ (mul_le_mul_of_nonneg_left hM hu.le)
    unfold eta u
    rw [show (1 : ℚ) / 2 ^ 53 * (1 / 2 ^ 40) = 1 / 2 ^ 93 by norm_num]
    exact inv_le_inv_pow (by norm_num)
  have bnd : ∀ {s : ℚ}, |s| ≤ M → ∀ {σ : ℚ}, |σ| ≤ M / 256 → |s + σ| ≤ 2 ^ 400 ∧ |rq (s + σ) - (s + σ)| ≤ 3 * (u * M) := by
    intro s hs σ hσ
    have h3 : |s + σ| ≤ 2 * M := (abs_add_le _ _).trans (by linarith)
    refine ⟨h3.trans h2M, (rq_err_add _).trans ?_⟩
    have := mul_le_mul_of_nonneg_left h3 hu.le
    linarith
  have hτ : |τ| ≤ M / 256 := by rwa [abs_of_nonneg hτ0]
  have hτn : |-τ| ≤ M / 256 := by rwa [abs_neg]
  have p1 := bnd hp hτn
  have p2 := bnd hp hτ
  have q1 := bnd hq hτn
  have q2 := bnd hq hτ
  have huM : u * M ≤ 1 / 1000000 * M := mul_le_mul_of_nonneg_right hu' hM0.le
  rw [← sub_eq_add_neg] at p1 q1
  rw [sub_fin (by norm_num) p1.1, sub_fin (by norm_num) q1.1, add_fin (by norm_num) p2.1, add_fin (by norm_num) q2.1,
    fmin_fin, fmax_fin]
  have a1 := abs_le.1 p1.2
  have a2 := abs_le.1 p2.2
  have a3 := abs_le.1 q1.2
  have a4 := abs_le.1 q2.2
  have a5 := abs_le.1 hp
  have a6 := abs_le.1 hq
  refine ⟨_, _, rfl, rfl, ?_, ?_, ?_⟩
  · rcases min_choice (rq (p - τ)) (rq (q - τ)) with h | h <;> rw [h, abs_le] <;> constructor <;> linarith
  · rcases max_choice (rq (p + τ)) (rq (q + τ)) with h | h <;> rw [h, abs_le] <;> constructor <;> linarith
  · have b1 : min (rq (p - τ)) (rq (q - τ)) ≤ rq (p - τ) := min_le_left _ _
    have b2 : rq (p + τ) ≤ max (rq (p + τ)) (rq (q + τ)) := le_max_left _ _
    have e : u * M = M / 2 ^ 53 := by unfold u; ring
    rw [e] at a1 a2
    linarith only [a1.2, a2.1, b1, b2, h1, hM0]

end Fl
end Celltree
