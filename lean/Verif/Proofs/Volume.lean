import Verif.Proofs.Area
import Mathlib.MeasureTheory.Measure.Lebesgue.EqHaar
import Mathlib.MeasureTheory.Measure.Lebesgue.Integral
import Mathlib.MeasureTheory.Group.Prod
import Mathlib.LinearAlgebra.Determinant
import Mathlib.LinearAlgebra.Matrix.ToLin
import Mathlib.LinearAlgebra.Basis.Fin
import Mathlib.Analysis.SpecialFunctions.Integrals.Basic

/-!
# The shoelace formula gives the Lebesgue measure of a convex polygon
-/

set_option linter.unusedSectionVars false

namespace Celltree

open MeasureTheory

instance : (volume : Measure (ℝ × ℝ)).IsAddHaarMeasure := inferInstanceAs ((volume : Measure ℝ).prod volume).IsAddHaarMeasure

/-- A point of the plane as a point of the model. -/
def toPt (p : ℝ × ℝ) : Pt ℝ := ⟨p.1, p.2⟩

/-- The open triangle. -/
def openTri (a b c : Pt ℝ) : Set (ℝ × ℝ) :=
  {p | 0 < orient a b (toPt p) ∧ 0 < orient b c (toPt p) ∧ 0 < orient c a (toPt p)}

/-- The open unit triangle. -/
def unitTri : Set (ℝ × ℝ) := {p | 0 < p.1 ∧ 0 < p.2 ∧ p.1 + p.2 < 1}

theorem volume_unitTri : volume unitTri = ENNReal.ofReal (1 / 2) := by
  have h : unitTri = regionBetween (fun _ => 0) (fun x => 1 - x) (Set.Ioc 0 1) := by
    ext p
    simp only [unitTri, regionBetween, Set.mem_ofPred_eq, Set.mem_Ioc, Set.mem_Ioo]
    constructor
    · rintro ⟨h1, h2, h3⟩; exact ⟨⟨h1, by linarith⟩, h2, by linarith⟩
    · rintro ⟨⟨h1, _⟩, h2, h3⟩; exact ⟨h1, h2, by linarith⟩
  rw [h, Measure.volume_eq_prod, volume_regionBetween_eq_integral]
  · congr 1
    rw [← intervalIntegral.integral_of_le (by norm_num)]
    simp only [Pi.sub_apply, sub_zero]
    rw [intervalIntegral.integral_sub (by simp) (by simp)]
    simp
    norm_num
  · exact integrableOn_const (by simp)
  · exact (Continuous.integrableOn_Ioc (by fun_prop))
  · exact measurableSet_Ioc
  · intro x hx; linarith [hx.2]

/-- The linear map that takes the unit vectors to `u` and `v`. -/
noncomputable def linTo (u v : Pt ℝ) : (ℝ × ℝ) →ₗ[ℝ] (ℝ × ℝ) :=
  Matrix.toLin (Module.Basis.finTwoProd ℝ) (Module.Basis.finTwoProd ℝ) !![u.x, v.x; u.y, v.y]

theorem linTo_apply (u v : Pt ℝ) (p : ℝ × ℝ) : linTo u v p = (u.x * p.1 + v.x * p.2, u.y * p.1 + v.y * p.2) := by
  unfold linTo; rw [Matrix.toLin_finTwoProd_apply]

theorem det_linTo (u v : Pt ℝ) : LinearMap.det (linTo u v) = u.x * v.y - v.x * u.y := by
  unfold linTo; rw [LinearMap.det_toLin, Matrix.det_fin_two_of]

theorem volume_openTri {a b c : Pt ℝ} (h : 0 ≤ orient a b c) : volume (openTri a b c) = ENNReal.ofReal (orient a b c / 2) := by
  have hsum : ∀ p, orient a b p + orient b c p + orient c a p = orient a b c := by intro p; unfold orient; ring
  rcases h.lt_or_eq with h | h
  · have key : openTri a b c = (fun p => (a.x, a.y) + p) '' (linTo (toVector a b) (toVector a c) '' unitTri) := by
      ext p
      simp only [Set.mem_image, linTo_apply, openTri, unitTri, Set.mem_ofPred_eq]
      constructor
      · rintro ⟨h1, h2, h3⟩
        have hs := hsum (toPt p)
        refine ⟨_, ⟨(orient c a (toPt p) / orient a b c, orient a b (toPt p) / orient a b c), ⟨by positivity, by positivity, ?_⟩, rfl⟩, ?_⟩
        · simp only; rw [← add_div, div_lt_one h]; linarith
        · have hne := h.ne'
          simp only [Prod.mk_add_mk, toVector]
          ext
          · simp only
            field_simp
            unfold orient toPt; ring
          · simp only
            field_simp
            unfold orient toPt; ring
      · rintro ⟨q, ⟨⟨u, v⟩, ⟨h1, h2, h3⟩, rfl⟩, rfl⟩
        simp only at h1 h2 h3
        simp only [Prod.mk_add_mk, toVector]
        refine ⟨?_, ?_, ?_⟩
        · have : orient a b (toPt (a.x + ((b.x - a.x) * u + (c.x - a.x) * v), a.y + ((b.y - a.y) * u + (c.y - a.y) * v))) =
            v * orient a b c := by unfold orient toPt; ring
          rw [this]; positivity
        · have : orient b c (toPt (a.x + ((b.x - a.x) * u + (c.x - a.x) * v), a.y + ((b.y - a.y) * u + (c.y - a.y) * v))) =
            (1 - (u + v)) * orient a b c := by unfold orient toPt; ring
          rw [this]; exact mul_pos (by linarith) h
        · have : orient c a (toPt (a.x + ((b.x - a.x) * u + (c.x - a.x) * v), a.y + ((b.y - a.y) * u + (c.y - a.y) * v))) =
            u * orient a b c := by unfold orient toPt; ring
          rw [this]; positivity
    rw [key, Set.image_add_left, measure_preimage_add, Measure.addHaar_image_linearMap, det_linTo, volume_unitTri]
    have : (toVector a b).x * (toVector a c).y - (toVector a c).x * (toVector a b).y = orient a b c := by
      unfold toVector orient; ring
    rw [this, abs_of_pos h, ← ENNReal.ofReal_mul h.le]
    congr 1; ring
  · have : openTri a b c = ∅ := by
      ext p
      simp only [openTri, Set.mem_ofPred_eq, Set.mem_empty_iff_false, iff_false]
      rintro ⟨h1, h2, h3⟩
      have := hsum (toPt p)
      linarith
    rw [this, ← h]; simp

theorem measurable_openTri (a b c : Pt ℝ) : MeasurableSet (openTri a b c) := by
  have hc : ∀ u v : Pt ℝ, Continuous fun p : ℝ × ℝ => orient u v (toPt p) := by
    intro u v; unfold orient toPt; fun_prop
  apply IsOpen.measurableSet
  exact (isOpen_lt continuous_const (hc a b)).inter ((isOpen_lt continuous_const (hc b c)).inter
    (isOpen_lt continuous_const (hc c a)))

/-- A line has no area. -/
theorem volume_line {a b : Pt ℝ} (h : a ≠ b) : volume {p : ℝ × ℝ | orient a b (toPt p) = 0} = 0 := by
  have key : {p : ℝ × ℝ | orient a b (toPt p) = 0} ⊆
      (fun p => (a.x, a.y) + p) '' (linTo (toVector a b) ⟨0, 0⟩ '' Set.univ) := by
    intro p hp
    simp only [Set.mem_ofPred_eq, toPt, orient] at hp
    simp only [Set.mem_image, linTo_apply, Set.mem_univ, true_and]
    by_cases hx : b.x - a.x = 0
    · have hy : b.y - a.y ≠ 0 := fun hy => h (Pt.ext' (by linarith) (by linarith))
      have hpx : p.1 - a.x = 0 := by
        rw [hx] at hp
        rcases mul_eq_zero.1 (show (b.y - a.y) * (p.1 - a.x) = 0 by linarith) with h | h
        · exact (hy h).elim
        · exact h
      refine ⟨_, ⟨((p.2 - a.y) / (b.y - a.y), 0), rfl⟩, ?_⟩
      ext
      · simp [toVector, hx]; linarith
      · simp [toVector]; field_simp; ring
    · refine ⟨_, ⟨((p.1 - a.x) / (b.x - a.x), 0), rfl⟩, ?_⟩
      ext
      · simp [toVector]; field_simp; ring
      · simp [toVector]; field_simp; linarith
  refine measure_mono_null key ?_
  rw [Set.image_add_left, measure_preimage_add, Measure.addHaar_image_linearMap, det_linTo]
  simp

/-- The triangles of the fan with top `a`. -/
def fanSet (a : Pt ℝ) : List (Pt ℝ) → Set (ℝ × ℝ)
  | b :: c :: l => openTri a b c ∪ fanSet a (c :: l)
  | _ => ∅

theorem mem_fanSet {a : Pt ℝ} {l : List (Pt ℝ)} {p : ℝ × ℝ} : p ∈ fanSet a l ↔ ∃ s ∈ pairs l, p ∈ openTri a s.1 s.2 := by
  match l with
  | [] => simp [fanSet]
  | [b] => simp [fanSet]
  | b :: c :: l =>
    have := mem_fanSet (a := a) (l := c :: l) (p := p)
    simp only [fanSet, pairs_cons_cons, Set.mem_union, List.mem_cons, this]
    constructor
    · rintro (h | ⟨s, h1, h2⟩)
      · exact ⟨(b, c), Or.inl rfl, h⟩
      · exact ⟨s, Or.inr h1, h2⟩
    · rintro ⟨s, rfl | h1, h2⟩
      · exact Or.inl h2
      · exact Or.inr ⟨s, h1, h2⟩

theorem measurable_fanSet (a : Pt ℝ) (l : List (Pt ℝ)) : MeasurableSet (fanSet a l) := by
  match l with
  | [] => simp [fanSet]
  | [b] => simp [fanSet]
  | b :: c :: l => exact (measurable_openTri a b c).union (measurable_fanSet a (c :: l))

theorem volume_fanSet {a : Pt ℝ} {l : List (Pt ℝ)} (h : ∀ x y z, List.Sublist [x, y, z] (a :: l) → 0 ≤ orient x y z) :
    volume (fanSet a l) = ENNReal.ofReal (fan2 a l / 2) := by
  match l with
  | [] => simp [fanSet, fan2]
  | [b] => simp [fanSet, fan2]
  | b :: c :: l =>
    have h' : ∀ x y z, List.Sublist [x, y, z] (a :: c :: l) → 0 ≤ orient x y z := fun x y z hs =>
      h x y z (hs.trans ((List.sublist_cons_self b _).cons_cons a))
    have h0 : 0 ≤ orient a b c := h a b c (by simp)
    have hn : 0 ≤ fan2 a (c :: l) := fan2_nonneg fun s hs => h' _ _ _ ((pairs_sublist hs).cons_cons a)
    have hdisj : Disjoint (openTri a b c) (fanSet a (c :: l)) := by
      rw [Set.disjoint_left]
      rintro p ⟨h1, h2, h3⟩ hp
      obtain ⟨s, hs, g1, g2, g3⟩ := mem_fanSet.1 hp
      have hsub := pairs_sublist hs
      have k : ∀ v ∈ c :: l, 0 ≤ orient a c v := by
        intro v hv
        rcases List.mem_cons.1 hv with rfl | hv
        · rw [orient_self_right]
        · exact h' a c v (((List.singleton_sublist.2 hv).cons_cons c).cons_cons a)
      have k1 := k s.1 (hsub.subset (by simp))
      have k2 := k s.2 (hsub.subset (by simp))
      have e : orient a s.1 s.2 * orient a c (toPt p) = orient s.2 a (toPt p) * orient a c s.1 +
          orient a s.1 (toPt p) * orient a c s.2 := by unfold orient; ring
      have e2 : orient a s.1 (toPt p) + orient s.1 s.2 (toPt p) + orient s.2 a (toPt p) = orient a s.1 s.2 := by
        unfold orient; ring
      have e3 : orient a c (toPt p) = - orient c a (toPt p) := by unfold orient; ring
      have p1 := mul_nonneg g3.le k1
      have p2 := mul_nonneg g1.le k2
      have p3 : 0 < orient a s.1 s.2 * orient c a (toPt p) := mul_pos (by linarith) h3
      rw [e3] at e
      linarith
    rw [fanSet, measure_union hdisj (measurable_fanSet a (c :: l)), volume_openTri h0, volume_fanSet h', fan2_cons,
      ← ENNReal.ofReal_add (by positivity) (by positivity)]
    congr 1; ring

/-- The measure of a convex polygon is given by the shoelace formula. -/
theorem ConvexPoly.volume_region {l : List (Pt ℝ)} (h : ConvexPoly l) :
    volume (region l) = ENNReal.ofReal (shoelace l) := by
  match l, h with
  | [], h => exact (h.ne_nil rfl).elim
  | a :: l, h =>
  rw [shoelace_eq_fan2, ← volume_fanSet h.turn]
  apply measure_congr
  -- the fan is in the polygon
  have hsub : fanSet a l ⊆ region (a :: l) := by
    intro p hp
    obtain ⟨s, hs, g1, g2, g3⟩ := mem_fanSet.1 hp
    have m := pairs_sublist hs
    intro t ht
    have k0 := h.support ht (v := a) (by simp)
    have k1 := h.support ht (v := s.1) (List.mem_cons_of_mem _ (m.subset (by simp)))
    have k2 := h.support ht (v := s.2) (List.mem_cons_of_mem _ (m.subset (by simp)))
    have e : orient a s.1 s.2 * orient t.1 t.2 (toPt p) = orient s.1 s.2 (toPt p) * orient t.1 t.2 a +
        orient s.2 a (toPt p) * orient t.1 t.2 s.1 + orient a s.1 (toPt p) * orient t.1 t.2 s.2 := by unfold orient; ring
    have e2 : orient a s.1 (toPt p) + orient s.1 s.2 (toPt p) + orient s.2 a (toPt p) = orient a s.1 s.2 := by
      unfold orient; ring
    have hpos : 0 < orient a s.1 s.2 := by linarith
    by_contra hneg
    push Not at hneg
    have := mul_neg_of_pos_of_neg hpos hneg
    have := mul_nonneg g1.le k2
    have := mul_nonneg g2.le k0
    have := mul_nonneg g3.le k1
    change orient a s.1 s.2 * orient t.1 t.2 (toPt p) < 0 at *
    linarith
  -- what is left is on lines through corners
  have hnull : volume (region (a :: l) \ fanSet a l) = 0 := by
    have hcover : region (a :: l) \ fanSet a l ⊆
        ⋃ s ∈ {s : Pt ℝ × Pt ℝ | s ∈ (a :: l) ×ˢ (a :: l) ∧ s.1 ≠ s.2}, {p : ℝ × ℝ | orient s.1 s.2 (toPt p) = 0} := by
      rintro p ⟨hp, hnot⟩
      by_contra hno
      simp only [Set.mem_iUnion, Set.mem_ofPred_eq, not_exists] at hno
      have hoff : ∀ u v, u ∈ a :: l → v ∈ a :: l → u ≠ v → orient u v (toPt p) ≠ 0 := fun u v hu hv huv h0 =>
        hno (u, v) ⟨List.mem_product.2 ⟨hu, hv⟩, huv⟩ h0
      have hp' : InPoly (a :: l) (toPt p) := hp
      obtain ⟨w, hw, hwne⟩ := h.side_from (v := a) (by simp)
      have hw1 : 0 < orient a w (toPt p) :=
        lt_of_le_of_ne (hp' _ hw) (Ne.symm (hoff a w (by simp) (mem_sides_mem hw).2 (Ne.symm hwne)))
      obtain ⟨s, hs, f1, f2⟩ := exists_up (fun v => decide (¬ 0 < orient a v (toPt p))) (l := a :: l) (v := w) (w := a)
        (mem_sides_mem hw).2 (by simp) (by simpa using hw1) (by simp [orient_same])
      simp only [decide_eq_false_iff_not, not_not, decide_eq_true_eq] at f1 f2
      rw [not_lt] at f2
      have hs2 : s.2 ≠ a := by
        intro e
        have := hp' s hs
        rw [e, orient_swap'] at this
        linarith
      have hs1 : s.1 ≠ a := by
        intro e
        rw [e, orient_same] at f1
        exact lt_irrefl _ f1
      obtain ⟨m1, m2⟩ := mem_sides_mem hs
      have hne : s.1 ≠ s.2 := by intro e; rw [e] at f1; linarith
      apply hnot
      refine mem_fanSet.2 ⟨s, ?_, f1, lt_of_le_of_ne (hp' s hs) (Ne.symm (hoff _ _ m1 m2 hne)), ?_⟩
      · change s ∈ pairs (a :: l ++ [a]) at hs
        obtain ⟨u, w', e⟩ := mem_pairs_split hs
        cases u with
        | nil =>
          simp only [List.nil_append, List.cons_append, List.cons.injEq] at e
          exact (hs1 e.1.symm).elim
        | cons x u =>
          rcases List.eq_nil_or_concat w' with rfl | ⟨w'', z, rfl⟩
          · have e' : (a :: l) ++ [a] = (x :: u ++ [s.1]) ++ [s.2] := by rw [e]; simp
            obtain ⟨_, e2⟩ := List.append_inj' e' rfl
            exact (hs2 (by simpa using e2.symm)).elim
          · have e' : (a :: l) ++ [a] = (x :: (u ++ s.1 :: s.2 :: w'')) ++ [z] := by rw [e]; simp
            obtain ⟨e1, _⟩ := List.append_inj' e' rfl
            simp only [List.cons.injEq] at e1
            rw [e1.2, pairs_append]
            simp
      · have h1 := hoff a s.2 (by simp) m2 (Ne.symm hs2)
        have : orient s.2 a (toPt p) = - orient a s.2 (toPt p) := orient_swap' _ _ _
        rw [this]
        have := lt_of_le_of_ne f2 h1
        linarith
    refine measure_mono_null hcover ?_
    refine (measure_biUnion_null_iff ?_).2 ?_
    · apply Set.Finite.countable
      exact ((a :: l) ×ˢ (a :: l)).finite_toSet.subset fun s hs => hs.1
    · rintro s ⟨_, hs⟩
      exact volume_line hs
  exact (ae_eq_set).2 ⟨hnull, by rw [Set.sdiff_eq_empty.2 hsub]; simp⟩

theorem ConvexPoly.shoelace_pos {K : Type} [Field K] [LinearOrder K] [IsStrictOrderedRing K] {l : List (Pt K)}
    (h : ConvexPoly l) : 0 < shoelace l := by
  obtain ⟨x, y, z, hs, hpos⟩ := h.nondeg
  -- sum of nonnegative orientations around an inner corner
  have hle : ∀ v ∈ l, ∀ s ∈ sides l, 0 ≤ orient v s.1 s.2 := by
    intro v hv s hs
    rw [← orient_rot v s.1 s.2]
    exact h.support hs hv
  have hn : 0 ≤ shoelace l := by
    rw [shoelace_fan x]
    have : 0 ≤ ((sides l).map fun s => orient x s.1 s.2).sum := by
      apply List.sum_nonneg
      intro t ht
      obtain ⟨s, hs', rfl⟩ := List.mem_map.1 ht
      exact hle x (hs.subset (by simp)) s hs'
    linarith
  refine lt_of_le_of_ne hn ?_
  intro h0
  -- all triangles are flat, from every corner
  have hz : ∀ v ∈ l, ∀ s ∈ sides l, orient v s.1 s.2 = 0 := by
    intro v hv s hs'
    have h1 : ((sides l).map fun s => orient v s.1 s.2).sum = 0 := by
      have := shoelace_fan v l
      rw [← h0] at this
      linarith
    exact all_zero_of_sum (fun t ht => by
      obtain ⟨s, hs', rfl⟩ := List.mem_map.1 ht
      exact hle v hv s hs') h1 _ (List.mem_map.2 ⟨s, hs', rfl⟩)
  obtain ⟨w, hw, hne⟩ := h.side_from (hs.subset (show x ∈ [x, y, z] by simp))
  apply h.not_collinear (Ne.symm hne)
  intro v hv
  rw [orient_rot v x w]
  exact hz v hv _ hw

theorem ConvexPoly.areaOf_region {l : List (Pt ℝ)} (h : ConvexPoly l) : areaOf (region l) = shoelace l := by
  unfold areaOf
  rw [h.volume_region, ENNReal.toReal_ofReal h.shoelace_pos.le]

end Celltree
