import Verif.Proofs.FloatCut
import Verif.Proofs.PolyClip
import Verif.Props.CyrusBeck

/-!
# Clipping in binary64 next to clipping in exact arithmetic

Every corner comes with the lines of the two sides that meet in it. The computed corner is near both lines, so it is near the
exact corner.
-/

set_option linter.unusedSectionVars false

namespace Celltree.Fl

/-- A corner: the computed point, the exact point, and the sides (of one of the two polygons) that meet there. -/
structure TV where
  p : Pt ℚ
  x : Pt ℚ
  e : Pt ℚ × Pt ℚ
  f : Pt ℚ × Pt ℚ
deriving DecidableEq

/-- What is known about a corner: `U` are the sides used so far, and `δ` measures how far the computed point is from the lines. -/
structure Vtx (l : List (Pt ℚ)) (U : List (Pt ℚ × Pt ℚ)) (δ : ℚ) (v : TV) : Prop where
  mem_e : v.e ∈ U
  mem_f : v.f ∈ U
  crs : sideCross v.e v.f ≠ 0
  on_e : orient v.e.1 v.e.2 v.x = 0
  on_f : orient v.f.1 v.f.2 v.x = 0
  inl : InPoly l v.x
  rep : IsRep v.p.x ∧ IsRep v.p.y
  res_e : |orient v.e.1 v.e.2 v.p| ≤ δ
  res_f : |orient v.f.1 v.f.2 v.p| ≤ δ

/-- What is known about the polygon. -/
structure Inv (l : List (Pt ℚ)) (U : List (Pt ℚ × Pt ℚ)) (δ : ℚ) (T : List TV) : Prop where
  vtx : ∀ v ∈ T, Vtx l U δ v
  link : ∀ q ∈ cyc T, q.1.f = q.2.e ∧ q.1.x ≠ q.2.x
  convex : ConvexPoly (T.map TV.x)

/-! ## Algebra -/

theorem sideCross_self (s : Pt ℚ × Pt ℚ) : sideCross s s = 0 := by unfold sideCross; ring

theorem sideCross_swap (s t : Pt ℚ × Pt ℚ) : sideCross s t = -sideCross t s := by unfold sideCross; ring

theorem orient_near {s : Pt ℚ × Pt ℚ} {p x : Pt ℚ} {E d : ℚ} (hs : Within E s.2 s.1) (h : Within d p x) (hE : 0 ≤ E) :
    |orient s.1 s.2 p - orient s.1 s.2 x| ≤ 2 * (E * d) := by
  have e : orient s.1 s.2 p - orient s.1 s.2 x = (s.2.x - s.1.x) * (p.y - x.y) - (s.2.y - s.1.y) * (p.x - x.x) := by
    unfold orient; ring
  rw [e]
  refine (abs_sub _ _).trans ?_
  rw [abs_mul, abs_mul]
  have h1 := mul_le_mul hs.1 h.2 (abs_nonneg _) hE
  have h2 := mul_le_mul hs.2 h.1 (abs_nonneg _) hE
  linarith

/-- Two points on a line. -/
theorem on_line_dir {a b v w : Pt ℚ} (hab : a ≠ b) (hv : orient a b v = 0) (hw : orient a b w = 0) :
    ∃ k, w.x - v.x = k * (b.x - a.x) ∧ w.y - v.y = k * (b.y - a.y) := by
  have hp : (b.x - a.x) ^ 2 + (b.y - a.y) ^ 2 ≠ 0 := by
    intro h
    have h1 : b.x - a.x = 0 := by nlinarith [sq_nonneg (b.x - a.x), sq_nonneg (b.y - a.y)]
    have h2 : b.y - a.y = 0 := by nlinarith [sq_nonneg (b.x - a.x), sq_nonneg (b.y - a.y)]
    exact hab (Pt.ext' (by linarith) (by linarith))
  have hc : (b.x - a.x) * (w.y - v.y) - (b.y - a.y) * (w.x - v.x) = 0 := by
    unfold orient at hv hw
    linear_combination hw - hv
  refine ⟨((b.x - a.x) * (w.x - v.x) + (b.y - a.y) * (w.y - v.y)) / ((b.x - a.x) ^ 2 + (b.y - a.y) ^ 2), ?_, ?_⟩
  · field_simp
    linear_combination (-(b.y - a.y)) * hc
  · field_simp
    linear_combination (b.x - a.x) * hc

theorem orient_dir {s t : Pt ℚ × Pt ℚ} {v w : Pt ℚ} {k : ℚ} (h1 : w.x - v.x = k * (s.2.x - s.1.x))
    (h2 : w.y - v.y = k * (s.2.y - s.1.y)) : orient t.1 t.2 w - orient t.1 t.2 v = k * sideCross t s := by
  have e : orient t.1 t.2 w - orient t.1 t.2 v = (t.2.x - t.1.x) * (w.y - v.y) - (t.2.y - t.1.y) * (w.x - v.x) := by
    unfold orient; ring
  rw [e, h1, h2]
  unfold sideCross
  ring

theorem orient_seg {s : Pt ℚ × Pt ℚ} {v w q : Pt ℚ} {k : ℚ} (h1 : w.x - v.x = k * (s.2.x - s.1.x))
    (h2 : w.y - v.y = k * (s.2.y - s.1.y)) (hv : orient s.1 s.2 v = 0) : orient v w q = k * orient s.1 s.2 q := by
  have e : orient v w q = (w.x - v.x) * (q.y - v.y) - (w.y - v.y) * (q.x - v.x) := by unfold orient; ring
  have e2 : orient s.1 s.2 q - orient s.1 s.2 v = (s.2.x - s.1.x) * (q.y - v.y) - (s.2.y - s.1.y) * (q.x - v.x) := by
    unfold orient; ring
  rw [hv, sub_zero] at e2
  rw [e, h1, h2, e2]
  ring

/-- The common point of two lines is determined. -/
theorem meet_unique {s t : Pt ℚ × Pt ℚ} (hst : sideCross s t ≠ 0) {x y : Pt ℚ} (h1 : orient s.1 s.2 x = 0)
    (h2 : orient t.1 t.2 x = 0) (h3 : orient s.1 s.2 y = 0) (h4 : orient t.1 t.2 y = 0) : x = y := by
  have hx : sideCross s t * (x.x - y.x) = 0 := by
    unfold orient at h1 h2 h3 h4
    unfold sideCross
    linear_combination (t.2.x - t.1.x) * (h1 - h3) - (s.2.x - s.1.x) * (h2 - h4)
  have hy : sideCross s t * (x.y - y.y) = 0 := by
    unfold orient at h1 h2 h3 h4
    unfold sideCross
    linear_combination (t.2.y - t.1.y) * (h1 - h3) - (s.2.y - s.1.y) * (h2 - h4)
  exact Pt.ext' (by linarith [(mul_eq_zero.1 hx).resolve_left hst]) (by linarith [(mul_eq_zero.1 hy).resolve_left hst])

/-- A point that is near two lines is near their common point. -/
theorem near_meet {s t : Pt ℚ × Pt ℚ} {E σ δ : ℚ} (hE : 0 < E) (hσ : 0 < σ) (hs : Within E s.2 s.1) (ht : Within E t.2 t.1)
    (hst : σ * E ^ 2 ≤ |sideCross s t|) {x p : Pt ℚ} (h1 : orient s.1 s.2 x = 0) (h2 : orient t.1 t.2 x = 0)
    (h3 : |orient s.1 s.2 p| ≤ δ) (h4 : |orient t.1 t.2 p| ≤ δ) : Within (2 * δ / (σ * E)) p x := by
  have hx : sideCross s t * (p.x - x.x) = (t.2.x - t.1.x) * orient s.1 s.2 p - (s.2.x - s.1.x) * orient t.1 t.2 p := by
    have e : sideCross s t * (p.x - x.x) = (t.2.x - t.1.x) * (orient s.1 s.2 p - orient s.1 s.2 x) -
        (s.2.x - s.1.x) * (orient t.1 t.2 p - orient t.1 t.2 x) := by
      unfold sideCross orient; ring
    rw [e, h1, h2, sub_zero, sub_zero]
  have hy : sideCross s t * (p.y - x.y) = (t.2.y - t.1.y) * orient s.1 s.2 p - (s.2.y - s.1.y) * orient t.1 t.2 p := by
    have e : sideCross s t * (p.y - x.y) = (t.2.y - t.1.y) * (orient s.1 s.2 p - orient s.1 s.2 x) -
        (s.2.y - s.1.y) * (orient t.1 t.2 p - orient t.1 t.2 x) := by
      unfold sideCross orient; ring
    rw [e, h1, h2, sub_zero, sub_zero]
  have key : ∀ {a b d : ℚ}, |a| ≤ E → |b| ≤ E → sideCross s t * d = a * orient s.1 s.2 p - b * orient t.1 t.2 p →
      |d| ≤ 2 * δ / (σ * E) := by
    intro a b d ha hb h
    have h5 : |sideCross s t| * |d| ≤ 2 * (E * δ) := by
      rw [← abs_mul, h]
      refine (abs_sub _ _).trans ?_
      rw [abs_mul, abs_mul]
      have m1 := mul_le_mul ha h3 (abs_nonneg _) hE.le
      have m2 := mul_le_mul hb h4 (abs_nonneg _) hE.le
      linarith
    have h6 := mul_le_mul_of_nonneg_right hst (abs_nonneg d)
    rw [le_div_iff₀ (by positivity)]
    have h7 : E * (|d| * (σ * E)) ≤ E * (2 * δ) := by nlinarith
    exact le_of_mul_le_mul_left h7 hE
  exact ⟨key ht.1 hs.1 hx, key ht.2 hs.2 hy⟩

/-! ## The pair of polygons -/

section
variable {M E ρ σ : ℚ} {l c : List (Pt ℚ)} (hM : 1 / 2 ^ 100 ≤ M) (hM' : M ≤ 2 ^ 198) (hg : GenPair M E ρ σ l c)
include hM hM' hg

theorem GenPair.M_pos : 0 < M := lt_of_lt_of_le (by positivity) hM

theorem GenPair.E_pos : 0 < E := by
  have h := hg.clear
  have hM0 := hg.M_pos hM hM'
  have h2 : 0 < ρ * σ * E := lt_of_lt_of_le (by positivity) h
  exact pos_of_mul_pos_right h2 (mul_pos hg.rho.1 hg.sigma.1).le

theorem GenPair.E_ge : M / 2 ^ 35 ≤ E := by
  have hE := hg.E_pos hM hM'
  refine hg.clear.trans ?_
  have : ρ * σ ≤ 1 := mul_le_one₀ hg.rho.2 hg.sigma.1.le hg.sigma.2
  calc ρ * σ * E ≤ 1 * E := mul_le_mul_of_nonneg_right this hE.le
    _ = E := one_mul E

theorem GenPair.E_tiny : 1 / 2 ^ 200 ≤ E := by
  refine le_trans ?_ (hg.E_ge hM hM')
  rw [le_div_iff₀ (by positivity)]
  refine le_trans ?_ hM
  rw [div_mul_eq_mul_div, div_le_div_iff₀ (by positivity) (by positivity)]
  have : (2 : ℚ) ^ 200 = 2 ^ 100 * 2 ^ 100 := by rw [← pow_add]
  rw [this]
  have h1 : (2 : ℚ) ^ 35 ≤ 2 ^ 100 := pow_le_pow_right₀ (by norm_num) (by norm_num)
  have h2 : (0 : ℚ) < 2 ^ 100 := by positivity
  nlinarith

theorem GenPair.rho_ge : 1 / 2 ^ 36 ≤ ρ := by
  have hE := hg.E_pos hM hM'
  have hM0 := hg.M_pos hM hM'
  have h := hg.clear
  have h1 : ρ * σ * E ≤ ρ * (2 * M) := by
    have : ρ * σ ≤ ρ := mul_le_of_le_one_right hg.rho.1.le hg.sigma.2
    exact mul_le_mul this hg.size_le hE.le hg.rho.1.le
  have h2 : M * (1 / 2 ^ 36) ≤ M * ρ := by
    have : M * (1 / 2 ^ 36) = M / 2 ^ 35 / 2 := by ring
    linarith
  exact le_of_mul_le_mul_left h2 hM0

theorem GenPair.side_mem {s : Pt ℚ × Pt ℚ} (hs : s ∈ sides l ++ sides c) : s.1 ∈ l ++ c ∧ s.2 ∈ l ++ c := by
  rcases List.mem_append.1 hs with h | h
  · have := mem_sides_mem h
    exact ⟨List.mem_append_left _ this.1, List.mem_append_left _ this.2⟩
  · have := mem_sides_mem h
    exact ⟨List.mem_append_right _ this.1, List.mem_append_right _ this.2⟩

theorem GenPair.side_size {s : Pt ℚ × Pt ℚ} (hs : s ∈ sides l ++ sides c) : Within E s.2 s.1 := by
  have := hg.side_mem hM hM' hs
  exact hg.size _ this.2 _ this.1

theorem GenPair.side_ne {s : Pt ℚ × Pt ℚ} (hs : s ∈ sides l ++ sides c) : s.1 ≠ s.2 := by
  rcases List.mem_append.1 hs with h | h
  · exact (hg.subject.two_on_line h).1
  · exact (hg.clipper.two_on_line h).1

/-- Points of the subject are near all corners. -/
theorem GenPair.point_bnd {x : Pt ℚ} (hx : InPoly l x) :
    (|x.x| ≤ M ∧ |x.y| ≤ M) ∧ ∀ w ∈ l ++ c, Within E x w := by
  have hc := hg.subject.convex
  obtain ⟨v1, m1, g1⟩ := hc.exists_le hx (d := ⟨1, 0⟩) (by simp)
  obtain ⟨v2, m2, g2⟩ := hc.exists_ge hx (d := ⟨1, 0⟩) (by simp)
  obtain ⟨v3, m3, g3⟩ := hc.exists_le hx (d := ⟨0, 1⟩) (by simp)
  obtain ⟨v4, m4, g4⟩ := hc.exists_ge hx (d := ⟨0, 1⟩) (by simp)
  unfold along at g1 g2 g3 g4
  simp only [one_mul, zero_mul, add_zero, zero_add] at g1 g2 g3 g4
  have up : ∀ {v}, v ∈ l → v ∈ l ++ c := fun h => List.mem_append_left _ h
  refine ⟨⟨?_, ?_⟩, fun w hw => ⟨?_, ?_⟩⟩
  · have a1 := (hg.bnd v1 (up m1)).1
    have a2 := (hg.bnd v2 (up m2)).1
    rw [abs_le] at a1 a2 ⊢
    constructor <;> linarith [a1.1, a2.2]
  · have a1 := (hg.bnd v3 (up m3)).2
    have a2 := (hg.bnd v4 (up m4)).2
    rw [abs_le] at a1 a2 ⊢
    constructor <;> linarith [a1.1, a2.2]
  · have a1 := (hg.size v1 (up m1) w hw).1
    have a2 := (hg.size v2 (up m2) w hw).1
    rw [abs_le] at a1 a2 ⊢
    constructor <;> linarith [a1.1, a2.2]
  · have a1 := (hg.size v3 (up m3) w hw).2
    have a2 := (hg.size v4 (up m4) w hw).2
    rw [abs_le] at a1 a2 ⊢
    constructor <;> linarith [a1.1, a2.2]

theorem GenPair.point_size {x y : Pt ℚ} (hx : InPoly l x) (hy : InPoly l y) : Within E x y := by
  have hc := hg.subject.convex
  obtain ⟨v1, m1, g1⟩ := hc.exists_le hx (d := ⟨1, 0⟩) (by simp)
  obtain ⟨v2, m2, g2⟩ := hc.exists_ge hx (d := ⟨1, 0⟩) (by simp)
  obtain ⟨v3, m3, g3⟩ := hc.exists_le hx (d := ⟨0, 1⟩) (by simp)
  obtain ⟨v4, m4, g4⟩ := hc.exists_ge hx (d := ⟨0, 1⟩) (by simp)
  unfold along at g1 g2 g3 g4
  simp only [one_mul, zero_mul, add_zero, zero_add] at g1 g2 g3 g4
  have hy' := (hg.point_bnd hM hM' hy).2
  have up : ∀ {v}, v ∈ l → v ∈ l ++ c := fun h => List.mem_append_left _ h
  refine ⟨?_, ?_⟩
  · have a1 := (hy' v1 (up m1)).1
    have a2 := (hy' v2 (up m2)).1
    rw [abs_le] at a1 a2 ⊢
    constructor <;> linarith [a1.2, a2.1]
  · have a1 := (hy' v3 (up m3)).2
    have a2 := (hy' v4 (up m4)).2
    rw [abs_le] at a1 a2 ⊢
    constructor <;> linarith [a1.2, a2.1]

variable {U : List (Pt ℚ × Pt ℚ)} {δ : ℚ} (hU : ∀ s ∈ U, s ∈ sides l ++ sides c) (hδ : δ ≤ M * E / 2 ^ 39)
include hU

theorem GenPair.vtx_near {v : TV} (hv : Vtx l U δ v) : Within (2 * δ / (σ * E)) v.p v.x :=
  near_meet (hg.E_pos hM hM') hg.sigma.1 (hg.side_size hM hM' (hU _ hv.mem_e)) (hg.side_size hM hM' (hU _ hv.mem_f))
    ((hg.angle _ (hU _ hv.mem_e) _ (hU _ hv.mem_f)).resolve_left hv.crs) hv.on_e hv.on_f hv.res_e hv.res_f

include hδ

theorem GenPair.eta_le : 2 * δ / (σ * E) ≤ ρ * E / 8 := by
  have hE := hg.E_pos hM hM'
  have hσ := hg.sigma.1
  rw [div_le_iff₀ (by positivity)]
  have h := mul_le_mul_of_nonneg_right hg.clear hE.le
  have e1 : ρ * E / 8 * (σ * E) = ρ * σ * E * E / 8 := by ring
  have e2 : M / 2 ^ 35 * E = 8 * (2 * (M * E / 2 ^ 39)) := by ring
  rw [e1]
  linarith

theorem GenPair.vtx_near' {v : TV} (hv : Vtx l U δ v) : Within (ρ * E / 8) v.p v.x := by
  have h1 := hg.vtx_near hM hM' hU hv
  have h2 := hg.eta_le hM hM' hU hδ
  exact ⟨h1.1.trans h2, h1.2.trans h2⟩

theorem GenPair.rhoE : ρ * E / 8 ≤ E / 8 := by
  have hE := hg.E_pos hM hM'
  have := mul_le_mul_of_nonneg_right hg.rho.2 hE.le
  linarith

theorem GenPair.vtx_bnd {v : TV} (hv : Vtx l U δ v) :
    (|v.p.x| ≤ 2 * M ∧ |v.p.y| ≤ 2 * M) ∧ ∀ w ∈ l ++ c, Within (2 * E) v.p w := by
  have hE := hg.E_pos hM hM'
  have h1 := hg.vtx_near' hM hM' hU hδ hv
  have h2 := hg.rhoE hM hM' hU hδ
  obtain ⟨⟨b1, b2⟩, b3⟩ := hg.point_bnd hM hM' hv.inl
  have hs := hg.size_le
  obtain ⟨n1, n2⟩ := h1
  rw [abs_le] at n1 n2 b1 b2
  refine ⟨⟨?_, ?_⟩, fun w hw => ?_⟩
  · rw [abs_le]; constructor <;> linarith
  · rw [abs_le]; constructor <;> linarith
  · obtain ⟨w1, w2⟩ := b3 w hw
    rw [abs_le] at w1 w2
    constructor <;> rw [abs_le] <;> constructor <;> linarith

theorem GenPair.vtx_size {v w : TV} (hv : Vtx l U δ v) (hw : Vtx l U δ w) : Within (2 * E) v.p w.p := by
  have hE := hg.E_pos hM hM'
  have h2 := hg.rhoE hM hM' hU hδ
  obtain ⟨a1, a2⟩ := hg.vtx_near' hM hM' hU hδ hv
  obtain ⟨b1, b2⟩ := hg.vtx_near' hM hM' hU hδ hw
  obtain ⟨c1, c2⟩ := hg.point_size hM hM' hv.inl hw.inl
  rw [abs_le] at a1 a2 b1 b2 c1 c2
  constructor <;> rw [abs_le] <;> constructor <;> linarith

/-- The corner is clearly on one side of a line that has not been used. -/
theorem GenPair.vtx_clear {v : TV} (hv : Vtx l U δ v) {k : Pt ℚ × Pt ℚ} (hk : k ∈ sides l ++ sides c) (hkU : k ≠ v.e ∧ k ≠ v.f) :
    ρ * E ^ 2 ≤ |orient k.1 k.2 v.x| ∧ |orient k.1 k.2 v.p - orient k.1 k.2 v.x| ≤ ρ * E ^ 2 / 4 := by
  refine ⟨hg.meet _ (hU _ hv.mem_e) _ (hU _ hv.mem_f) _ hk ?_ hkU.1 hkU.2 hv.crs _ hv.inl hv.on_e hv.on_f, ?_⟩
  · intro e
    have := hv.crs
    rw [e, sideCross_self] at this
    exact this rfl
  · have := orient_near (hg.side_size hM hM' hk) (hg.vtx_near' hM hM' hU hδ hv) (hg.E_pos hM hM').le
    refine this.trans (le_of_eq ?_)
    ring

theorem GenPair.u_rho : 8192 * u ≤ ρ := by
  refine le_trans ?_ (hg.rho_ge hM hM')
  unfold u
  norm_num

theorem GenPair.vtx_sign {v : TV} (hv : Vtx l U δ v) {k : Pt ℚ × Pt ℚ} (hk : k ∈ sides l ++ sides c) (hkU : k ≠ v.e ∧ k ≠ v.f) :
    (0 < orient k.1 k.2 v.p ↔ 0 < orient k.1 k.2 v.x) ∧ (orient k.1 k.2 v.p < 0 ↔ orient k.1 k.2 v.x < 0) ∧
      orient k.1 k.2 v.x ≠ 0 ∧ 4096 * u * E ^ 2 ≤ |orient k.1 k.2 v.p| := by
  have hE := hg.E_pos hM hM'
  have hρ := hg.rho.1
  have hpos : 0 < ρ * E ^ 2 := by positivity
  obtain ⟨h1, h2⟩ := hg.vtx_clear hM hM' hU hδ hv hk hkU
  have h3 : 4096 * u * E ^ 2 ≤ ρ * E ^ 2 / 2 := by
    have := mul_le_mul_of_nonneg_right (hg.u_rho hM hM' hU hδ) (sq_nonneg E)
    linarith
  generalize orient k.1 k.2 v.p = op at *
  generalize orient k.1 k.2 v.x = ox at *
  rw [abs_le] at h2
  rcases le_total 0 ox with h | h
  · rw [abs_of_nonneg h] at h1
    refine ⟨⟨fun _ => by linarith, fun _ => by linarith⟩, ⟨fun _ => by linarith, fun _ => by linarith⟩, by intro e; linarith, ?_⟩
    rw [abs_of_nonneg (by linarith)]
    linarith
  · rw [abs_of_nonpos h] at h1
    refine ⟨⟨fun _ => by linarith, fun _ => by linarith⟩, ⟨fun _ => by linarith, fun _ => by linarith⟩, by intro e; linarith, ?_⟩
    rw [abs_of_nonpos (by linarith)]
    linarith

/-- Consecutive corners are computed to be different. -/
theorem GenPair.vtx_ne {v w : TV} (hv : Vtx l U δ v) (hw : Vtx l U δ w) (hl : v.f = w.e) (hx : v.x ≠ w.x) : v.p ≠ w.p := by
  have hE := hg.E_pos hM hM'
  have hpos : 0 < ρ * E ^ 2 := mul_pos hg.rho.1 (by positivity)
  have h1 : v.e ≠ w.f := by
    intro e
    refine hx (meet_unique hv.crs hv.on_e hv.on_f (e ▸ hw.on_f) (hl ▸ hw.on_e))
  have h2 : v.e ≠ w.e := by
    intro e
    have := hv.crs
    rw [hl, e, sideCross_self] at this
    exact this rfl
  obtain ⟨c1, c2⟩ := hg.vtx_clear hM hM' hU hδ hw (hU _ hv.mem_e) ⟨h2, h1⟩
  intro e
  have h3 := hv.res_e
  rw [e] at h3
  have h4 : δ ≤ ρ * E ^ 2 / 16 := by
    refine hδ.trans ?_
    have h := mul_le_mul_of_nonneg_right hg.clear hE.le
    have e2 : M / 2 ^ 35 * E = 16 * (M * E / 2 ^ 39) := by ring
    have : ρ * σ * E * E ≤ ρ * E ^ 2 := by
      have : ρ * σ ≤ ρ := mul_le_of_le_one_right hg.rho.1.le hg.sigma.2
      have := mul_le_mul_of_nonneg_right this (sq_nonneg E)
      linarith
    linarith
  have h5 : |orient v.e.1 v.e.2 w.x| ≤ |orient v.e.1 v.e.2 w.p| + |orient v.e.1 v.e.2 w.p - orient v.e.1 v.e.2 w.x| := by
    calc |orient v.e.1 v.e.2 w.x| = |orient v.e.1 v.e.2 w.p - (orient v.e.1 v.e.2 w.p - orient v.e.1 v.e.2 w.x)| := by ring_nf
      _ ≤ _ := abs_sub _ _
  linarith

end

end Celltree.Fl
