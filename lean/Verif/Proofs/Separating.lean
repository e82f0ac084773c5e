import Verif.Proofs.PairArea
import Mathlib.Analysis.Convex.Radon
import Mathlib.LinearAlgebra.Dimension.Constructions
import Mathlib.LinearAlgebra.FiniteDimensional.Basic

/-!
# The separating axis test
-/

set_option linter.unusedSectionVars false

namespace Celltree

section
variable {K : Type} [Field K] [LinearOrder K] [IsStrictOrderedRing K]

/-! ## Interiors -/

/-- A convex polygon has an interior point. -/
theorem ConvexPoly.exists_interior {l : List (Pt K)} (h : ConvexPoly l) : ∃ c, InInterior l c := by
  obtain ⟨x, y, z, hs, hpos⟩ := h.nondeg
  refine ⟨⟨(x.x + y.x + z.x) / 3, (x.y + y.y + z.y) / 3⟩, fun s hs' hne => ?_⟩
  have hx := h.support hs' (hs.subset (show x ∈ [x, y, z] by simp))
  have hy := h.support hs' (hs.subset (show y ∈ [x, y, z] by simp))
  have hz := h.support hs' (hs.subset (show z ∈ [x, y, z] by simp))
  have e : orient s.1 s.2 ⟨(x.x + y.x + z.x) / 3, (x.y + y.y + z.y) / 3⟩ =
      (orient s.1 s.2 x + orient s.1 s.2 y + orient s.1 s.2 z) / 3 := by unfold orient; ring
  rw [e]
  refine lt_of_le_of_ne (by positivity) fun h0 => ?_
  have h1 : orient s.1 s.2 x = 0 := by linarith
  have h2 : orient s.1 s.2 y = 0 := by linarith
  have h3 : orient s.1 s.2 z = 0 := by linarith
  rw [orient_collinear hne h1 h2 h3] at hpos
  exact lt_irrefl _ hpos

/-- The interior of a polygon inside another one is inside its interior. -/
theorem InInterior.mono {out A : List (Pt K)} (h : ConvexPoly out) (hsub : ∀ v ∈ out, InPoly A v) {p : Pt K}
    (hp : InInterior out p) : InInterior A p := by
  intro s hs hne
  obtain ⟨v, hv, hlt⟩ := h.exists_lt hp (normal_ne hne)
  rw [along_normal s.1 s.2 v, along_normal s.1 s.2 p] at hlt
  have := hsub v hv s hs
  linarith

/-- Two convex polygons have a convex polygon in common exactly if their interiors have a point in common. -/
theorem clip_none_iff {A B : List (Pt K)} (hA : ConvexPoly A) (hB : ConvexPoly B)
    (hl : A.length + B.length ≤ clipMaxNVertex) :
    (∃ out, polygonPolygonClipArea A B = .ok (shoelace out) ∧ ConvexPoly out ∧
      (∀ p, InPoly out p ↔ InPoly A p ∧ InPoly B p) ∧ ∃ p, InInterior A p ∧ InInterior B p) ∨
    (polygonPolygonClipArea A B = .ok 0 ∧ ¬ ∃ p, InInterior A p ∧ InInterior B p) := by
  rcases polygonPolygonClipArea_spec hA hB.ne_nil hl with ⟨out, h1, h2, h3⟩ | ⟨h1, q, hq, hne, h2⟩
  · obtain ⟨c, hc⟩ := h2.exists_interior
    have hm : ∀ v ∈ out, InPoly A v ∧ InPoly B v := fun v hv => (h3 v).1 (h2.corner_inPoly hv)
    exact Or.inl ⟨out, h1, h2, h3, c, InInterior.mono h2 (fun v hv => (hm v hv).1) hc,
      InInterior.mono h2 (fun v hv => (hm v hv).2) hc⟩
  · refine Or.inr ⟨h1, ?_⟩
    rintro ⟨p, hp1, hp2⟩
    have := h2 p hp1.inPoly hp2.inPoly
    have := hp2 q hq hne
    linarith

/-! ## Projections -/

theorem extrema_le (env : Env K) (n : Pt K) (l : List (Pt K)) (m : K × K) :
    let e := l.foldl (fun (m : K × K) p => (fmin m.1 (dot p n), fmax m.2 (dot p n))) m
    (e.1 ≤ m.1 ∧ ∀ p ∈ l, e.1 ≤ dot p n) ∧ (∀ c, c ≤ m.1 → (∀ p ∈ l, c ≤ dot p n) → c ≤ e.1) ∧
    (m.2 ≤ e.2 ∧ ∀ p ∈ l, dot p n ≤ e.2) ∧ (∀ c, m.2 ≤ c → (∀ p ∈ l, dot p n ≤ c) → e.2 ≤ c) := by
  induction l generalizing m with
  | nil => simp
  | cons a l ih =>
    obtain ⟨⟨h1, h2⟩, h3, ⟨h4, h5⟩, h6⟩ := ih (fmin m.1 (dot a n), fmax m.2 (dot a n))
    rw [fmin_eq, fmax_eq] at *
    simp only [List.foldl_cons, fmin_eq, fmax_eq, List.mem_cons, forall_eq_or_imp] at *
    refine ⟨⟨h1.trans (min_le_left _ _), h1.trans (min_le_right _ _), h2⟩, fun c hc hl => h3 c (le_min hc hl.1) hl.2,
      ⟨(le_max_left _ _).trans h4, (le_max_right _ _).trans h4, h5⟩, fun c hc hl => h6 c (max_le hc hl.1) hl.2⟩

theorem dot_eq_along (p n : Pt K) : dot p n = along n p := by unfold dot along; ring

theorem isSeparatingAxis_false {env : Env K} {n : Pt K} {a b : List (Pt K)}
    (h1 : ∃ v ∈ a, ∃ w ∈ b, along n w < along n v) (h2 : ∃ v ∈ a, ∃ w ∈ b, along n v < along n w) :
    isSeparatingAxis env n a b = false := by
  obtain ⟨v, hv, w, hw, hlt⟩ := h1
  obtain ⟨v', hv', w', hw', hlt'⟩ := h2
  unfold isSeparatingAxis extremaProjected
  have ea := extrema_le env n a (env.floatMax, env.floatMin)
  have eb := extrema_le env n b (env.floatMax, env.floatMin)
  simp only at ea eb
  simp only
  rw [if_pos]
  simp only [Bool.and_eq_true, decide_eq_true_eq, gt_iff_lt]
  simp only [dot_eq_along] at *
  exact ⟨lt_of_le_of_lt (eb.1.2 w hw) (lt_of_lt_of_le hlt (ea.2.2.1.2 v hv)),
    lt_of_le_of_lt (ea.1.2 v' hv') (lt_of_lt_of_le hlt' (eb.2.2.1.2 w' hw'))⟩

/-- If the line of a side is not found to be separating, there is a corner of the other polygon on its left. -/
theorem exists_left_of_axis {env : Env K} {n : Pt K} {a b : List (Pt K)} {c : K} (h : isSeparatingAxis env n b a = false)
    (hmin : env.floatMin ≤ c) (hmax : c ≤ env.floatMax) (hb : ∀ v ∈ b, c ≤ along n v) : ∃ v ∈ a, c < along n v := by
  by_contra hno
  push Not at hno
  unfold isSeparatingAxis extremaProjected at h
  have ea := extrema_le env n a (env.floatMax, env.floatMin)
  have eb := extrema_le env n b (env.floatMax, env.floatMin)
  simp only at ea eb h
  split at h
  · rename_i hc
    simp only [Bool.and_eq_true, decide_eq_true_eq, gt_iff_lt] at hc
    simp only [dot_eq_along] at *
    have h1 := eb.2.1 c hmax hb
    have h2 := ea.2.2.2 c hmin hno
    have := hc.2
    linarith
  · cases h

theorem separatingAxesLoop_iff {env : Env K} {a b : List (Pt K)} (p : Pt K) (l : List (Pt K)) :
    separatingAxesLoop env a b p l = true ↔ ∀ s ∈ pairs (p :: l), s.1 ≠ s.2 →
      isSeparatingAxis env ⟨s.1.y - s.2.y, s.2.x - s.1.x⟩ a b = false := by
  induction l generalizing p with
  | nil => simp [separatingAxesLoop]
  | cons q l ih =>
    unfold separatingAxesLoop
    simp only [pairs_cons_cons, List.mem_cons, forall_eq_or_imp]
    by_cases hpq : p = q
    · subst hpq
      simp [ih]
    · have : ((p.y - q.y == 0) && (q.x - p.x == 0)) = false := by
        rw [Bool.eq_false_iff]
        intro hh
        simp only [Bool.and_eq_true, beq_iff_eq] at hh
        exact hpq (Pt.ext' (by linarith [hh.2]) (by linarith [hh.1]))
      rw [this]
      simp only [Bool.false_eq_true, if_false]
      cases hs : isSeparatingAxis env ⟨p.y - q.y, q.x - p.x⟩ a b with
      | true => simp [hpq]
      | false => simp [ih]

theorem separatingAxes_eq {env : Env K} {a b : List (Pt K)} (ha : a ≠ []) :
    ∃ r, separatingAxes env a b = .ok r ∧ (r = true ↔ ∀ s ∈ sides a, s.1 ≠ s.2 →
      isSeparatingAxis env ⟨s.1.y - s.2.y, s.2.x - s.1.x⟩ a b = false) := by
  refine ⟨separatingAxesLoop env a b (a.getLast ha) a, ?_, ?_⟩
  · unfold separatingAxes
    rw [rdI_length_sub_one ha]
    rfl
  · rw [separatingAxesLoop_iff]
    constructor
    · exact fun h s hs => h s ((mem_sides_pairs ha).1 hs)
    · exact fun h s hs => h s ((mem_sides_pairs ha).2 hs)

theorem axis_ne {s : Pt K × Pt K} (h : s.1 ≠ s.2) :
    (⟨s.1.y - s.2.y, s.2.x - s.1.x⟩ : Pt K).x ≠ 0 ∨ (⟨s.1.y - s.2.y, s.2.x - s.1.x⟩ : Pt K).y ≠ 0 := by
  by_contra hh
  push Not at hh
  simp only at hh
  exact h (Pt.ext' (by linarith [hh.2]) (by linarith [hh.1]))

theorem along_axis (s : Pt K × Pt K) (v : Pt K) : along ⟨s.1.y - s.2.y, s.2.x - s.1.x⟩ v =
    (s.1.y * s.2.x - s.1.x * s.2.y) + orient s.1 s.2 v := by
  unfold along orient; ring

theorem SmallPts.const {env : Env K} {l : List (Pt K)} (h : SmallPts env l) {s : Pt K × Pt K} (hs : s ∈ sides l) :
    env.floatMin ≤ s.1.y * s.2.x - s.1.x * s.2.y ∧ s.1.y * s.2.x - s.1.x * s.2.y ≤ env.floatMax := by
  obtain ⟨B, hB, h1, h2⟩ := h
  obtain ⟨m1, m2⟩ := mem_sides_mem hs
  obtain ⟨a1, a2⟩ := hB _ m1
  obtain ⟨a3, a4⟩ := hB _ m2
  have p1 : |s.1.y * s.2.x| ≤ B * B := by rw [abs_mul]; exact mul_le_mul a2 a3 (abs_nonneg _) ((abs_nonneg _).trans a2)
  have p2 : |s.1.x * s.2.y| ≤ B * B := by rw [abs_mul]; exact mul_le_mul a1 a4 (abs_nonneg _) ((abs_nonneg _).trans a1)
  have q1 := abs_le.1 p1
  have q2 := abs_le.1 p2
  constructor <;> nlinarith

/-- A corner strictly on the left of a line gives an interior point on the left of the line. -/
theorem ConvexPoly.interior_left {l : List (Pt K)} (h : ConvexPoly l) {v r s : Pt K} (hv : v ∈ l) (hpos : 0 < orient r s v) :
    ∃ c, InInterior l c ∧ 0 < orient r s c := by
  obtain ⟨c, hc⟩ := h.exists_interior
  have hD : 0 < orient r s v + |orient r s c| := by positivity
  have hw : 0 < orient r s v / (2 * (orient r s v + |orient r s c|)) := by positivity
  have hle : orient r s v / (2 * (orient r s v + |orient r s c|)) ≤ 1 / 2 := by
    rw [div_le_div_iff₀ (by positivity) (by norm_num)]
    have := abs_nonneg (orient r s c)
    linarith
  refine ⟨lineAt c v (1 - orient r s v / (2 * (orient r s v + |orient r s c|))),
    InInterior.convex hc (h.corner_inPoly hv) (by linarith) (by linarith), ?_⟩
  rw [orient_lineAt]
  have e : orient r s v / (2 * (orient r s v + |orient r s c|)) * (orient r s v + |orient r s c|) = orient r s v / 2 := by
    field_simp
  have e2 := neg_abs_le (orient r s c)
  have e3 := mul_le_mul_of_nonneg_left e2 hw.le
  generalize orient r s v / (2 * (orient r s v + |orient r s c|)) = w at *
  linarith [e, e3]

/-- Separating axis theorem: if no side of either polygon separates them, their interiors have a point in common. -/
theorem separating_axis {A B : List (Pt K)} (hA : ConvexPoly A) (hB : ConvexPoly B)
    (h1 : ∀ s ∈ sides A, s.1 ≠ s.2 → ∃ v ∈ B, 0 < orient s.1 s.2 v)
    (h2 : ∀ s ∈ sides B, s.1 ≠ s.2 → ∃ v ∈ A, 0 < orient s.1 s.2 v) : ∃ p, InInterior A p ∧ InInterior B p := by
  classical
  let F : Pt K × Pt K → Set (K × K) := fun s => {x | 0 < orient s.1 s.2 ⟨x.1, x.2⟩}
  let SA : Finset (Pt K × Pt K) := ((sides A).filter fun s => s.1 ≠ s.2).toFinset
  let SB : Finset (Pt K × Pt K) := ((sides B).filter fun s => s.1 ≠ s.2).toFinset
  have memA : ∀ s, s ∈ SA ↔ s ∈ sides A ∧ s.1 ≠ s.2 := fun s => by simp [SA]
  have memB : ∀ s, s ∈ SB ↔ s ∈ sides B ∧ s.1 ≠ s.2 := fun s => by simp [SB]
  have hconv : ∀ s ∈ SA ∪ SB, Convex K (F s) := by
    intro s _ x hx y hy u v hu hv huv
    have hx' : 0 < orient s.1 s.2 ⟨x.1, x.2⟩ := hx
    have hy' : 0 < orient s.1 s.2 ⟨y.1, y.2⟩ := hy
    change 0 < orient s.1 s.2 ⟨u * x.1 + v * y.1, u * x.2 + v * y.2⟩
    have e : orient s.1 s.2 ⟨u * x.1 + v * y.1, u * x.2 + v * y.2⟩ =
        u * orient s.1 s.2 ⟨x.1, x.2⟩ + v * orient s.1 s.2 ⟨y.1, y.2⟩ := by
      have : v = 1 - u := by linarith
      subst this
      unfold orient; ring
    rw [e]
    rcases hu.lt_or_eq with hu | hu
    · exact add_pos_of_pos_of_nonneg (mul_pos hu hx') (mul_nonneg hv hy'.le)
    · have : v = 1 := by linarith
      rw [← hu, this]; simpa using hy'
  -- one polygon, and one side of the other
  have one : ∀ {P : List (Pt K)} {SP : Finset (Pt K × Pt K)}, ConvexPoly P → (∀ s, s ∈ SP ↔ s ∈ sides P ∧ s.1 ≠ s.2) →
      ∀ I : Finset (Pt K × Pt K), (I \ SP).card ≤ 1 → (∀ s ∈ I \ SP, ∃ v ∈ P, 0 < orient s.1 s.2 v) →
      (⋂ i ∈ I, F i).Nonempty := by
    intro P SP hP memP I hcard hleft
    haveI : Nonempty (Pt K × Pt K) := ⟨(⟨0, 0⟩, ⟨0, 0⟩)⟩
    rcases Finset.card_le_one_iff_subset_singleton.1 hcard with ⟨q, hq⟩
    by_cases hqI : q ∈ I \ SP
    · obtain ⟨v, hv, hpos⟩ := hleft q hqI
      obtain ⟨c, hc, hc'⟩ := hP.interior_left hv hpos
      refine ⟨(c.x, c.y), Set.mem_iInter₂.2 fun s hs => ?_⟩
      by_cases hsP : s ∈ SP
      · exact hc s ((memP s).1 hsP).1 ((memP s).1 hsP).2
      · have := Finset.mem_singleton.1 (hq (Finset.mem_sdiff.2 ⟨hs, hsP⟩))
        rw [this]; exact hc'
    · obtain ⟨c, hc⟩ := hP.exists_interior
      refine ⟨(c.x, c.y), Set.mem_iInter₂.2 fun s hs => ?_⟩
      by_cases hsP : s ∈ SP
      · exact hc s ((memP s).1 hsP).1 ((memP s).1 hsP).2
      · have hm := Finset.mem_sdiff.2 ⟨hs, hsP⟩
        have := Finset.mem_singleton.1 (hq hm)
        rw [this] at hm
        exact (hqI hm).elim
  have hinter : ∀ I ⊆ SA ∪ SB, I.card ≤ Module.finrank K (K × K) + 1 → (⋂ i ∈ I, F i).Nonempty := by
    intro I hI hcard
    rw [Module.finrank_prod, Module.finrank_self] at hcard
    have hdisj : Disjoint (I \ SA) (I \ SB) := by
      rw [Finset.disjoint_left]
      intro s hs hs'
      rw [Finset.mem_sdiff] at hs hs'
      rcases Finset.mem_union.1 (hI hs.1) with h | h
      · exact hs.2 h
      · exact hs'.2 h
    have hsum : (I \ SA).card + (I \ SB).card ≤ I.card := by
      rw [← Finset.card_union_of_disjoint hdisj]
      exact Finset.card_le_card (Finset.union_subset Finset.sdiff_subset Finset.sdiff_subset)
    by_cases hc : (I \ SA).card ≤ 1
    · refine one hA memA I hc fun s hs => ?_
      rw [Finset.mem_sdiff] at hs
      rcases Finset.mem_union.1 (hI hs.1) with h | h
      · exact (hs.2 h).elim
      · exact h2 s ((memB s).1 h).1 ((memB s).1 h).2
    · refine one hB memB I (by omega) fun s hs => ?_
      rw [Finset.mem_sdiff] at hs
      rcases Finset.mem_union.1 (hI hs.1) with h | h
      · exact h1 s ((memA s).1 h).1 ((memA s).1 h).2
      · exact (hs.2 h).elim
  obtain ⟨x, hx⟩ := Convex.helly_theorem' (𝕜 := K) (F := F) hconv hinter
  rw [Set.mem_iInter₂] at hx
  exact ⟨⟨x.1, x.2⟩, fun s hs hne => hx s (Finset.mem_union_left _ ((memA s).2 ⟨hs, hne⟩)),
    fun s hs hne => hx s (Finset.mem_union_right _ ((memB s).2 ⟨hs, hne⟩))⟩

/-- The test on two polygons. -/
def satTest (env : Env K) (a b : List (Pt K)) : M Bool := do
  let ab ← separatingAxes env a b
  if ab then separatingAxes env b a else .ok false

/-- The test decides whether the interiors have a point in common. -/
theorem satTest_spec {env : Env K} {A B : List (Pt K)} (hA : ConvexPoly A) (hB : ConvexPoly B) (sA : SmallPts env A)
    (sB : SmallPts env B) : ∃ r, satTest env A B = .ok r ∧ (r = true ↔ ∃ p, InInterior A p ∧ InInterior B p) := by
  obtain ⟨r1, e1, h1⟩ := separatingAxes_eq (env := env) (b := B) hA.ne_nil
  obtain ⟨r2, e2, h2⟩ := separatingAxes_eq (env := env) (b := A) hB.ne_nil
  refine ⟨r1 && r2, ?_, ?_⟩
  · unfold satTest
    rw [e1]
    change (if r1 then separatingAxes env B A else .ok false) = _
    cases r1
    · rfl
    · rw [if_pos rfl, e2]; rfl
  · rw [Bool.and_eq_true, h1, h2]
    constructor
    · rintro ⟨g1, g2⟩
      refine separating_axis hA hB ?_ ?_
      · intro s hs hne
        obtain ⟨c1, c2⟩ := sA.const hs
        obtain ⟨v, hv, hlt⟩ := exists_left_of_axis (g1 s hs hne) c1 c2 (fun v hv => by
          rw [along_axis]; have := hA.support hs hv; linarith)
        rw [along_axis] at hlt
        exact ⟨v, hv, by linarith⟩
      · intro s hs hne
        obtain ⟨c1, c2⟩ := sB.const hs
        obtain ⟨v, hv, hlt⟩ := exists_left_of_axis (g2 s hs hne) c1 c2 (fun v hv => by
          rw [along_axis]; have := hB.support hs hv; linarith)
        rw [along_axis] at hlt
        exact ⟨v, hv, by linarith⟩
    · rintro ⟨p, hp1, hp2⟩
      have key : ∀ s : Pt K × Pt K, s.1 ≠ s.2 → ∀ {P Q : List (Pt K)}, ConvexPoly P → ConvexPoly Q → InInterior P p →
          InInterior Q p → isSeparatingAxis env ⟨s.1.y - s.2.y, s.2.x - s.1.x⟩ P Q = false := by
        intro s hne P Q hP hQ hp hq
        obtain ⟨v, hv, v1⟩ := hP.exists_gt hp (axis_ne hne)
        obtain ⟨w, hw, w1⟩ := hQ.exists_lt hq (axis_ne hne)
        obtain ⟨v', hv', v1'⟩ := hP.exists_lt hp (axis_ne hne)
        obtain ⟨w', hw', w1'⟩ := hQ.exists_gt hq (axis_ne hne)
        exact isSeparatingAxis_false ⟨v, hv, w, hw, w1.trans v1⟩ ⟨v', hv', w', hw', v1'.trans w1'⟩
      exact ⟨fun s _ hne => key s hne hA hB hp1 hp2, fun s _ hne => key s hne hB hA hp2 hp1⟩

end
end Celltree
