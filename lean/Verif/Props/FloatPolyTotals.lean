import Verif.Props.FloatPolygons
import Verif.Proofs.Conserve

/-!
# Totals of areas of intersection of convex polygons in binary64: C98
-/

set_option linter.unusedSectionVars false

namespace Celltree.Fl

open MeasureTheory

variable {vertices verticesA : List (Pt Fl)} {faces facesA : IntArr} {fill fillA nBuckets cellsPerLeaf : Int} {t : CellTree Fl}
  {M : ℚ}

/-! ## Sums over a table -/

/-- The value of a finite number, as a real number. -/
noncomputable def rval (x : Fl) : ℝ := (val x : ℚ)

/-- A sum over the entries of a table is near the sum of the exact values. -/
theorem sum_near_real {T : List (ℕ × ℝ)} {n : ℕ} {f g e : ℕ → ℝ} (hnd : (T.map (·.1)).Nodup)
    (hT : ∀ j a, (j, a) ∈ T ↔ j < n ∧ a = f j ∧ 0 < a) (hf : ∀ j < n, 0 ≤ f j) (h : ∀ j < n, |f j - g j| ≤ e j) :
    |(T.map (·.2)).sum - ∑ j ∈ Finset.range n, g j| ≤ ∑ j ∈ Finset.range n, e j := by
  have h1 : (T.map (·.2)).sum = ((T.map (·.1)).map f).sum := by
    rw [List.map_map]
    congr 1
    exact List.map_congr_left fun x hx => ((hT x.1 x.2).1 hx).2.1
  have h2 : ((T.map (·.1)).map f).sum = ∑ j ∈ (T.map (·.1)).toFinset, f j := (List.sum_toFinset _ hnd).symm
  have h3 : ∑ j ∈ (T.map (·.1)).toFinset, f j = ∑ j ∈ Finset.range n, f j := by
    refine Finset.sum_subset ?_ ?_
    · intro j hj
      rw [List.mem_toFinset, List.mem_map] at hj
      obtain ⟨x, hx, rfl⟩ := hj
      exact Finset.mem_range.2 ((hT x.1 x.2).1 hx).1
    · intro j hj hj'
      by_contra hne
      refine hj' ?_
      rw [List.mem_toFinset, List.mem_map]
      have hj := Finset.mem_range.1 hj
      exact ⟨(j, f j), (hT _ _).2 ⟨hj, rfl, lt_of_le_of_ne (hf j hj) (Ne.symm hne)⟩, rfl⟩
  rw [h1, h2, h3, ← Finset.sum_sub_distrib]
  refine (Finset.abs_sum_le_sum_abs _ _).trans (Finset.sum_le_sum fun j hj => h j (Finset.mem_range.1 hj))

theorem mem_zip_map {β : Type} {f : Fl → β} {ii jj : List ℕ} {areas : List Fl} {i j : ℕ} {y : β} :
    (i, j, y) ∈ ii.zip (jj.zip (areas.map f)) ↔ ∃ x, (i, j, x) ∈ ii.zip (jj.zip areas) ∧ y = f x := by
  have e : ii.zip (jj.zip (areas.map f)) = (ii.zip (jj.zip areas)).map fun x => (x.1, x.2.1, f x.2.2) := by
    induction ii generalizing jj areas with
    | nil => rfl
    | cons a ii ih =>
      match jj, areas with
      | [], _ => rfl
      | _ :: _, [] => rfl
      | b :: jj, c :: areas =>
        simp only [List.zip_cons_cons, List.map_cons]
        rw [ih]
  rw [e, List.mem_map]
  constructor
  · rintro ⟨⟨i', j', x⟩, hx, he⟩
    simp only [Prod.mk.injEq] at he
    obtain ⟨rfl, rfl, rfl⟩ := he
    exact ⟨x, hx, rfl⟩
  · rintro ⟨x, hx, rfl⟩
    exact ⟨_, hx, rfl⟩

/-- The entries of a table for one key, from areas that are accurate. -/
theorem table_near {T : List (ℕ × ℝ)} {P : ℕ → Fl → Prop} (hnd : (T.map (·.1)).Nodup)
    (hP : ∀ j y, (j, y) ∈ T ↔ ∃ x, P j x ∧ y = rval x) {n : ℕ} {g e : ℕ → ℝ} (hlt : ∀ j x, P j x → j < n)
    (h : ∀ j < n, ∃ a : ℚ, 0 ≤ a ∧ |(a : ℝ) - g j| ≤ e j ∧ ∀ x, P j x ↔ x = fin a ∧ 0 < a) :
    |(T.map (·.2)).sum - ∑ j ∈ Finset.range n, g j| ≤ ∑ j ∈ Finset.range n, e j := by
  have h' : ∀ j : ℕ, ∃ a : ℚ, j < n → 0 ≤ a ∧ |(a : ℝ) - g j| ≤ e j ∧ ∀ x, P j x ↔ x = fin a ∧ 0 < a := by
    intro j
    by_cases hj : j < n
    · obtain ⟨a, ha⟩ := h j hj
      exact ⟨a, fun _ => ha⟩
    · exact ⟨0, fun hh => absurd hh hj⟩
  choose f hf using h'
  refine sum_near_real (f := fun j => (f j : ℝ)) hnd (fun j a => ?_) (fun j hj => by exact_mod_cast (hf j hj).1)
    fun j hj => (hf j hj).2.1
  rw [hP]
  constructor
  · rintro ⟨x, hx, rfl⟩
    have hj := hlt j x hx
    obtain ⟨rfl, h0⟩ := ((hf j hj).2.2 x).1 hx
    exact ⟨hj, rfl, by unfold rval val; exact_mod_cast h0⟩
  · rintro ⟨hj, rfl, h0⟩
    have h0 : 0 < f j := by exact_mod_cast h0
    exact ⟨fin (f j), ((hf j hj).2.2 _).2 ⟨rfl, h0⟩, rfl⟩

theorem table_rows {ii jj : List ℕ} {areas : List Fl} (h1 : ii.length = jj.length) (h2 : jj.length = areas.length)
    (hnd : (ii.zip jj).Nodup) {i n : ℕ} {g e : ℕ → ℝ} (hlt : ∀ j x, (i, j, x) ∈ ii.zip (jj.zip areas) → j < n)
    (h : ∀ j < n, ∃ a : ℚ, 0 ≤ a ∧ |(a : ℝ) - g j| ≤ e j ∧ ∀ x, (i, j, x) ∈ ii.zip (jj.zip areas) ↔ x = fin a ∧ 0 < a) :
    |total ii (areas.map rval) i - ∑ j ∈ Finset.range n, g j| ≤ ∑ j ∈ Finset.range n, e j := by
  have h2' : jj.length = (areas.map rval).length := by rw [List.length_map]; exact h2
  rw [total_row h1 h2']
  refine table_near (P := fun j x => (i, j, x) ∈ ii.zip (jj.zip areas)) (nodup_row h1 h2' hnd i) (fun j y => ?_) hlt h
  rw [← mem_zip_map]
  simp only [List.mem_map, List.mem_filter, decide_eq_true_eq]
  constructor
  · rintro ⟨x, ⟨hm, rfl⟩, h'⟩
    rw [← h']; exact hm
  · intro h
    exact ⟨_, ⟨h, rfl⟩, rfl⟩

theorem table_cols {ii jj : List ℕ} {areas : List Fl} (h1 : ii.length = jj.length) (h2 : jj.length = areas.length)
    (hnd : (ii.zip jj).Nodup) {j n : ℕ} {g e : ℕ → ℝ} (hlt : ∀ i x, (i, j, x) ∈ ii.zip (jj.zip areas) → i < n)
    (h : ∀ i < n, ∃ a : ℚ, 0 ≤ a ∧ |(a : ℝ) - g i| ≤ e i ∧ ∀ x, (i, j, x) ∈ ii.zip (jj.zip areas) ↔ x = fin a ∧ 0 < a) :
    |total jj (areas.map rval) j - ∑ i ∈ Finset.range n, g i| ≤ ∑ i ∈ Finset.range n, e i := by
  have h2' : jj.length = (areas.map rval).length := by rw [List.length_map]; exact h2
  rw [total_col h1 h2']
  refine table_near (P := fun i x => (i, j, x) ∈ ii.zip (jj.zip areas)) (nodup_col h1 h2' hnd j) (fun i y => ?_) hlt h
  rw [← mem_zip_map]
  simp only [List.mem_map, List.mem_filter, decide_eq_true_eq, Prod.mk.injEq]
  constructor
  · rintro ⟨⟨i', j', x⟩, ⟨hm, rfl⟩, rfl, rfl⟩
    exact hm
  · intro h
    exact ⟨_, ⟨h, rfl⟩, rfl, rfl⟩

theorem sum_range_real {α : Type} (l : List α) (d : α) (f : α → ℝ) :
    ∑ j ∈ Finset.range l.length, f (l.getD j d) = (l.map f).sum := by
  induction l with
  | nil => simp
  | cons a l ih =>
    rw [List.length_cons, Finset.sum_range_succ', List.map_cons, List.sum_cons, ← ih, add_comm]
    simp

/-! ## The exact areas -/

theorem commonArea_comm (l c : List (Pt ℚ)) : commonArea l c = commonArea c l := by
  unfold commonArea; rw [Set.inter_comm]

theorem commonArea_zero {l c : List (Pt ℚ)} (hl : ConvexPoly l) (hc : ConvexPoly c) (hn : l.length + c.length ≤ clipMaxNVertex)
    (h : ¬ ∃ p, InInterior l p ∧ InInterior c p) : commonArea l c = 0 := by
  rcases clip_none_iff hl hc hn with ⟨_, _, _, _, g⟩ | ⟨g, _⟩
  · exact absurd g h
  · rw [← clipArea_real hl hc hn g]; simp

theorem commonArea_volume {l c : List (Pt ℚ)} (hl : ConvexPoly l) (h : commonArea l c = 0) :
    volume (polyRegion l ∩ polyRegion c) = 0 := by
  unfold commonArea areaOf at h
  rcases (ENNReal.toReal_eq_zero_iff _).1 h with h | h
  · exact h
  · exact absurd h (ne_top_of_le_ne_top (convex_real hl).finite_region (measure_mono Set.inter_subset_left))

theorem polysRegion_measurable (cs : List (List (Pt ℚ))) : MeasurableSet (polysRegion cs) := by
  induction cs with
  | nil => simp [polysRegion]
  | cons c cs ih =>
    have : polysRegion (c :: cs) = polyRegion c ∪ polysRegion cs := by ext p; simp [polysRegion]
    rw [this]
    exact (region_measurable _).union ih

/-- The common areas of `l` with polygons without common areas add up. -/
theorem sum_common {l : List (Pt ℚ)} (hl : ConvexPoly l) {cs : List (List (Pt ℚ))} (hc : ∀ c ∈ cs, ConvexPoly c)
    (hn : ∀ c ∈ cs, c.length ≤ 32) (h : PolysApart cs) :
    (cs.map (commonArea l)).sum = areaOf (polyRegion l ∩ polysRegion cs) := by
  have hfin : volume (polyRegion l) ≠ ⊤ := (convex_real hl).finite_region
  induction cs with
  | nil => simp [polysRegion, areaOf]
  | cons c cs ih =>
    unfold PolysApart at h
    rw [List.pairwise_cons] at h
    have e : polyRegion l ∩ polysRegion (c :: cs) = (polyRegion l ∩ polyRegion c) ∪ (polyRegion l ∩ polysRegion cs) := by
      rw [← Set.inter_union_distrib_left]; congr 1; ext p; simp [polysRegion]
    have hd : AEDisjoint volume (polyRegion l ∩ polyRegion c) (polyRegion l ∩ polysRegion cs) := by
      have hsub : (polyRegion l ∩ polyRegion c) ∩ (polyRegion l ∩ polysRegion cs) ⊆
          ⋃ c' ∈ {c' | c' ∈ cs}, polyRegion c ∩ polyRegion c' := by
        rintro p ⟨⟨_, p1⟩, _, c', hc', p2⟩
        exact Set.mem_biUnion hc' ⟨p1, p2⟩
      refine measure_mono_null hsub ((measure_biUnion_null_iff ?_).2 ?_)
      · exact (List.finite_toSet cs).countable
      · intro c' hc'
        refine commonArea_volume (hc c (by simp)) (commonArea_zero (hc c (by simp)) (hc c' (List.mem_cons_of_mem _ hc')) ?_ (h.1 c' hc'))
        have h1 := hn c (by simp)
        have h2 := hn c' (List.mem_cons_of_mem _ hc')
        unfold clipMaxNVertex maxNVertex; omega
    have hm : MeasurableSet (polyRegion l ∩ polysRegion cs) := (region_measurable _).inter (polysRegion_measurable cs)
    rw [List.map_cons, List.sum_cons, ih (fun c' h' => hc c' (List.mem_cons_of_mem _ h')) (fun c' h' => hn c' (List.mem_cons_of_mem _ h')) h.2]
    unfold commonArea areaOf
    rw [e, measure_union₀ hm.nullMeasurableSet hd, ENNReal.toReal_add]
    · exact ne_top_of_le_ne_top hfin (measure_mono Set.inter_subset_left)
    · exact ne_top_of_le_ne_top hfin (measure_mono Set.inter_subset_left)

theorem area_poly {l : List (Pt ℚ)} (hl : ConvexPoly l) : areaOf (polyRegion l) = ((shoelace l : ℚ) : ℝ) := by
  unfold polyRegion
  rw [(convex_real hl).areaOf_region, shoelace_real]

/-- If the polygons cover `l`, the total is the area of `l`. -/
theorem covered_area {l : List (Pt ℚ)} (hl : ConvexPoly l) {cs : List (List (Pt ℚ))} (h : polyRegion l ⊆ polysRegion cs) :
    areaOf (polyRegion l ∩ polysRegion cs) = ((shoelace l : ℚ) : ℝ) := by
  rw [Set.inter_eq_left.2 h, area_poly hl]

/-! ## The polygons of a table -/

/-- The polygons of the faces of a table: strictly convex, and counter-clockwise. -/
def PolysOf (vertices : List (Pt Fl)) (fill : Int) (faces : IntArr) (cs : List (List (Pt ℚ))) : Prop :=
  List.Forall₂ (fun r c => FaceIs vertices fill r c ∧ StrictlyConvex c) faces.rows cs

theorem PolysOf.get {cs : List (List (Pt ℚ))} (h : PolysOf vertices fill faces cs) {j : Nat} {c : List (Pt ℚ)} (hj : cs[j]? = some c) :
    ∃ s, faces.rows[j]? = some s ∧ FaceIs vertices fill s c ∧ StrictlyConvex c := by
  unfold PolysOf at h
  generalize faces.rows = rows at h
  induction h generalizing j with
  | nil => cases hj
  | cons hd _ ih =>
    cases j with
    | zero => cases hj; exact ⟨_, rfl, hd⟩
    | succ j => exact ih hj

theorem PolysOf.length {cs : List (List (Pt ℚ))} (h : PolysOf vertices fill faces cs) : faces.rows.length = cs.length :=
  List.Forall₂.length_eq h

theorem PolysOf.row {cs : List (List (Pt ℚ))} (h : PolysOf vertices fill faces cs) {s : List Int} (hs : s ∈ faces.rows) :
    ∃ c ∈ cs, FaceIs vertices fill s c ∧ StrictlyConvex c := by
  obtain ⟨j, hj⟩ := List.mem_iff_getElem?.1 hs
  have hlt : j < cs.length := h.length ▸ (List.getElem?_eq_some_iff.1 hj).1
  obtain ⟨s', g1, g2⟩ := h.get (List.getElem?_eq_getElem hlt)
  rw [hj] at g1; cases g1
  exact ⟨_, List.getElem_mem hlt, g2⟩

theorem PolysOf.convex {cs : List (List (Pt ℚ))} (h : PolysOf vertices fill faces cs) : ∀ c ∈ cs, ConvexPoly c := by
  intro c hc
  obtain ⟨j, hj⟩ := List.mem_iff_getElem?.1 hc
  obtain ⟨_, _, _, g⟩ := h.get hj
  exact g.convex

theorem PolysOf.short {cs : List (List (Pt ℚ))} (h : PolysOf vertices fill faces cs) (hv : ValidFaces vertices.length fill faces)
    (hcol : faces.ncol ≤ maxNVertex) : ∀ c ∈ cs, c.length ≤ 32 := by
  intro c hc
  obtain ⟨j, hj⟩ := List.mem_iff_getElem?.1 hc
  obtain ⟨s, g1, g2, _⟩ := h.get hj
  exact (faceIs_length_le g2 ((hv.rows s (List.mem_of_getElem? g1)).row (hv.rect s (List.mem_of_getElem? g1)))).trans hcol

theorem PolysOf.num {cs : List (List (Pt ℚ))} (h : PolysOf vertices fill faces cs) : NumFaces vertices fill faces := by
  intro r hr p hp
  obtain ⟨c, _, hc, _⟩ := h.row hr
  obtain ⟨v, _, rfl⟩ := (hc.mem p).1 hp
  exact ⟨(nofun : fin _ ≠ nan), (nofun : fin _ ≠ nan)⟩

theorem boundsOverlap_of_interior {l c : List (Pt ℚ)} (hl : ConvexPoly l) (hc : ConvexPoly c)
    (h : ∃ p, InInterior l p ∧ InInterior c p) : BoundsOverlap l c := by
  obtain ⟨p, h1, h2⟩ := h
  have dx : (⟨1, 0⟩ : Pt ℚ).x ≠ 0 ∨ (⟨1, 0⟩ : Pt ℚ).y ≠ 0 := Or.inl one_ne_zero
  have dy : (⟨0, 1⟩ : Pt ℚ).x ≠ 0 ∨ (⟨0, 1⟩ : Pt ℚ).y ≠ 0 := Or.inr one_ne_zero
  have ax : ∀ v : Pt ℚ, along ⟨1, 0⟩ v = v.x := fun v => by unfold along; simp
  have ay : ∀ v : Pt ℚ, along ⟨0, 1⟩ v = v.y := fun v => by unfold along; simp
  have key : ∀ {d : Pt ℚ}, d.x ≠ 0 ∨ d.y ≠ 0 → (∃ v ∈ l, ∃ w ∈ c, along d v < along d w) ∧ ∃ v ∈ l, ∃ w ∈ c, along d w < along d v := by
    intro d hd
    obtain ⟨v, hv, v1⟩ := hl.exists_lt h1 hd
    obtain ⟨w, hw, w1⟩ := hc.exists_gt h2 hd
    obtain ⟨v', hv', v2⟩ := hl.exists_gt h1 hd
    obtain ⟨w', hw', w2⟩ := hc.exists_lt h2 hd
    exact ⟨⟨v, hv, w, hw, v1.trans w1⟩, v', hv', w', hw', w2.trans v2⟩
  obtain ⟨x1, x2⟩ := key dx
  obtain ⟨y1, y2⟩ := key dy
  simp only [ax, ay] at x1 x2 y1 y2
  exact ⟨x1, x2, y1, y2⟩

/-- A box that overlaps the bounding box of a face. -/
theorem boundsOverlap_box {q : Box ℚ} {c : List (Pt ℚ)} {s : List Int} (hs : FaceIs vertices fill s c)
    (h : BoxOverlapsPts (fbox q) (facePts vertices fill s)) : BoundsOverlap (rectPts q) c := by
  have m1 : (⟨q.xmin, q.ymin⟩ : Pt ℚ) ∈ rectPts q := by simp [rectPts]
  have m2 : (⟨q.xmax, q.ymax⟩ : Pt ℚ) ∈ rectPts q := by simp [rectPts]
  obtain ⟨⟨p1, k1, l1⟩, ⟨p2, k2, l2⟩, ⟨p3, k3, l3⟩, p4, k4, l4⟩ := h
  obtain ⟨v1, n1, rfl⟩ := (hs.mem p1).1 k1
  obtain ⟨v2, n2, rfl⟩ := (hs.mem p2).1 k2
  obtain ⟨v3, n3, rfl⟩ := (hs.mem p3).1 k3
  obtain ⟨v4, n4, rfl⟩ := (hs.mem p4).1 k4
  exact ⟨⟨_, m1, _, n1, (lt_fin _ _).1 l1⟩, ⟨_, m2, _, n2, (lt_fin _ _).1 l2⟩, ⟨_, m1, _, n3, (lt_fin _ _).1 l3⟩,
    _, m2, _, n4, (lt_fin _ _).1 l4⟩

/-- Faces with overlapping bounding boxes. -/
theorem boundsOverlap_face {l c : List (Pt ℚ)} {r s : List Int} (hr : FaceIs verticesA fillA r l) (hs : FaceIs vertices fill s c)
    (h : ∃ a, IsBBox (facePts verticesA fillA r) a ∧ BoxOverlapsPts a (facePts vertices fill s)) : BoundsOverlap l c := by
  obtain ⟨a, ha, ⟨p1, k1, l1⟩, ⟨p2, k2, l2⟩, ⟨p3, k3, l3⟩, p4, k4, l4⟩ := h
  obtain ⟨v1, n1, rfl⟩ := (hs.mem p1).1 k1
  obtain ⟨v2, n2, rfl⟩ := (hs.mem p2).1 k2
  obtain ⟨v3, n3, rfl⟩ := (hs.mem p3).1 k3
  obtain ⟨v4, n4, rfl⟩ := (hs.mem p4).1 k4
  obtain ⟨q1, a1, e1⟩ := ha.left
  obtain ⟨q2, a2, e2⟩ := ha.right
  obtain ⟨q3, a3, e3⟩ := ha.bottom
  obtain ⟨q4, a4, e4⟩ := ha.top
  obtain ⟨w1, b1, rfl⟩ := (hr.mem q1).1 a1
  obtain ⟨w2, b2, rfl⟩ := (hr.mem q2).1 a2
  obtain ⟨w3, b3, rfl⟩ := (hr.mem q3).1 a3
  obtain ⟨w4, b4, rfl⟩ := (hr.mem q4).1 a4
  rw [← e1] at l1
  rw [← e2] at l2
  rw [← e3] at l3
  rw [← e4] at l4
  exact ⟨⟨_, b1, _, n1, (lt_fin _ _).1 l1⟩, ⟨_, b2, _, n2, (lt_fin _ _).1 l2⟩, ⟨_, b3, _, n3, (lt_fin _ _).1 l3⟩,
    _, b4, _, n4, (lt_fin _ _).1 l4⟩

theorem rect_shoelace (q : Box ℚ) : shoelace (rectPts q) = (q.xmax - q.xmin) * (q.ymax - q.ymin) := by
  unfold rectPts
  simp [shoelace, sides, pairs]
  ring

open Classical in
/-- The error of a pair: nothing if there is nothing in common. -/
theorem pair_err {E σ : ℚ} {l c : List (Pt ℚ)} {a : ℚ} (h : |(a : ℝ) - commonArea l c| ≤ (pairAcc M E σ l c : ℚ))
    (h0 : commonArea l c = 0 → a = 0) :
    |(a : ℝ) - commonArea l c| ≤ if commonArea l c = 0 then 0 else ((pairAcc M E σ l c : ℚ) : ℝ) := by
  split
  · next e => rw [e, h0 e]; simp
  · exact h

/-- **C98** (boxes): the areas that `intersect_boxes` reports in binary64 for a box add up to the area that the box has in
common with the mesh; if the mesh covers the box, to the area of the box. -/
theorem C98_box_totals (hm : GoodMesh Fl.env vertices faces fill)
    (ht : Makes Fl.env vertices faces fill nBuckets cellsPerLeaf t) (hM : 1 / 2 ^ 100 ≤ M) (hM' : M ≤ 2 ^ 198)
    {cs : List (List (Pt ℚ))} (hcs : PolysOf vertices fill faces cs) (hap : PolysApart cs)
    {boxes : List (Box ℚ)} (hbox : ∀ q ∈ boxes, q.xmin < q.xmax ∧ q.ymin < q.ymax) {E ρ σ : ℚ}
    (hgen : ∀ q ∈ boxes, ∀ c ∈ cs, BoundsOverlap (rectPts q) c → GenPair M E ρ σ (rectPts q) c)
    {nThreads : Nat} (hn : 0 < nThreads) {sched : List Nat} {sched2 : Nat → List Nat}
    (hs : sched.Perm (List.range nThreads)) (hs2 : ∀ n, (sched2 n).Perm (List.range n)) :
    ∃ ii jj areas, t.intersectBoxes (boxes.map fbox) nThreads sched sched2 = .ok (ii, jj, areas) ∧
      ∀ i q, boxes[i]? = some q →
        |total ii (areas.map rval) i - areaOf (polyRegion (rectPts q) ∩ polysRegion cs)| ≤ polyTotalAcc M E σ (rectPts q) cs ∧
        (polyRegion (rectPts q) ⊆ polysRegion cs →
          |total ii (areas.map rval) i - ((q.xmax - q.xmin) * (q.ymax - q.ymin) : ℚ)| ≤ polyTotalAcc M E σ (rectPts q) cs) := by
  classical
  obtain ⟨hcol, _⟩ := ht.constructed' hm
  have hshort := hcs.short hm.valid hcol
  obtain ⟨ii, jj, areas, h1, h2, h3, h4, _, h5, h6⟩ := C97_intersect_boxes_accuracy hm ht hM hM'
    (fun q hq => ⟨(hbox q hq).1.le, (hbox q hq).2.le⟩) (fun q hq s hs ho => by
      obtain ⟨c, hc, g1, g2⟩ := hcs.row hs
      exact ⟨c, E, ρ, σ, g1, hgen q hq c hc (boundsOverlap_box g1 ho)⟩) hn hs hs2
  refine ⟨ii, jj, areas, h1, fun i q hq => ?_⟩
  have hq' := List.mem_of_getElem? hq
  have hconv : ConvexPoly (rectPts q) := boxPoly_convex (hbox q hq').1 (hbox q hq').2
  have key : |total ii (areas.map rval) i - areaOf (polyRegion (rectPts q) ∩ polysRegion cs)| ≤ polyTotalAcc M E σ (rectPts q) cs := by
    rw [← sum_common hconv hcs.convex hshort hap, ← sum_range_real cs [] (commonArea (rectPts q))]
    unfold polyTotalAcc
    rw [← sum_range_real cs []]
    refine table_rows h2 h3 h4 (fun j x hx => ?_) fun j hj => ?_
    · obtain ⟨_, s, _, g, _⟩ := h5 i j x hx
      exact hcs.length ▸ (List.getElem?_eq_some_iff.1 g).1
    · have hc := List.getElem?_eq_getElem hj
      have e : cs.getD j [] = cs[j] := by rw [List.getD_eq_getElem?_getD, hc]; rfl
      rw [e]
      obtain ⟨s, g1, g2, g3⟩ := hcs.get hc
      by_cases ho : BoundsOverlap (rectPts q) cs[j]
      · obtain ⟨a, a1, a2, a3, a4⟩ := h6 i j q s _ E ρ σ hq g1 g2 (hgen q hq' _ (List.getElem_mem hj) ho)
        exact ⟨a, a1, pair_err a2 a3, a4⟩
      · have hz : commonArea (rectPts q) cs[j] = 0 := by
          refine commonArea_zero hconv g3.convex ?_ fun h => ho (boundsOverlap_of_interior hconv g3.convex h)
          have := hshort _ (List.getElem_mem hj)
          have : (rectPts q).length = 4 := rfl
          unfold clipMaxNVertex maxNVertex; omega
        refine ⟨0, le_rfl, by rw [hz]; simp, fun x => ⟨fun hx => ?_, fun hx => absurd hx.2 (lt_irrefl _)⟩⟩
        obtain ⟨q', s', k1, k2, k3⟩ := h5 i j x hx
        rw [hq] at k1; cases k1
        rw [g1] at k2; cases k2
        exact absurd (boundsOverlap_box g2 k3) ho
  refine ⟨key, fun hcov => ?_⟩
  rw [covered_area hconv hcov, rect_shoelace] at key
  exact key

/-- **C98** (faces): the same for `intersect_faces`, for the totals of the query faces and for the totals of the faces of the
mesh. -/
theorem C98_face_totals (hm : GoodMesh Fl.env vertices faces fill)
    (ht : Makes Fl.env vertices faces fill nBuckets cellsPerLeaf t) (hM : 1 / 2 ^ 100 ≤ M) (hM' : M ≤ 2 ^ 198)
    {cs ls : List (List (Pt ℚ))} (hcs : PolysOf vertices fill faces cs)
    (hvA : ValidFaces verticesA.length fillA facesA) (hcolA : facesA.ncol ≤ maxNVertex) (hls : PolysOf verticesA fillA facesA ls)
    {E ρ σ : ℚ} (hgen : ∀ l ∈ ls, ∀ c ∈ cs, BoundsOverlap l c → GenPair M E ρ σ l c) (hρ : M / 2 ^ 47 ≤ ρ ^ 2 * E)
    {h : Heap} {ref : Nat} (href : h[ref]? = some facesA)
    {nThreads : Nat} (hn : 0 < nThreads) {sched sched1 : List Nat} {sched2 sched3 : Nat → List Nat}
    (hs : sched.Perm (List.range facesA.rows.length)) (hs1 : sched1.Perm (List.range nThreads))
    (hs2 : ∀ n, (sched2 n).Perm (List.range n)) (hs3 : ∀ n, (sched3 n).Perm (List.range n)) :
    ∃ h' ii jj areas, t.intersectFacesH Fl.env h verticesA ref fillA nThreads sched sched1 sched2 sched3 =
        .ok (h', ii, jj, areas) ∧
      (PolysApart cs → ∀ i l, ls[i]? = some l →
        |total ii (areas.map rval) i - areaOf (polyRegion l ∩ polysRegion cs)| ≤ polyTotalAcc M E σ l cs ∧
        (polyRegion l ⊆ polysRegion cs → |total ii (areas.map rval) i - (shoelace l : ℚ)| ≤ polyTotalAcc M E σ l cs)) ∧
      (PolysApart ls → ∀ j c, cs[j]? = some c →
        |total jj (areas.map rval) j - areaOf (polyRegion c ∩ polysRegion ls)| ≤ polyTotalAcc' M E σ ls c ∧
        (polyRegion c ⊆ polysRegion ls → |total jj (areas.map rval) j - (shoelace c : ℚ)| ≤ polyTotalAcc' M E σ ls c)) := by
  classical
  obtain ⟨hcol, _⟩ := ht.constructed' hm
  have hshort := hcs.short hm.valid hcol
  have hshortA := hls.short hvA hcolA
  obtain ⟨h', ii, jj, areas, h1, h2, h3, h4, _, h5, h6⟩ := C97_intersect_faces_accuracy hm ht hM hM' hvA hcolA hls.num
    (fun r hr s hs ho => by
      obtain ⟨c, hc, g1, g2⟩ := hcs.row hs
      obtain ⟨l, hl, k1, k2⟩ := hls.row hr
      exact ⟨l, c, E, ρ, σ, k1, g1, hgen l hl c hc (boundsOverlap_face k1 g1 ho)⟩) href hn hs hs1 hs2 hs3
  have pair : ∀ i (hi : i < ls.length) j (hj : j < cs.length), ∃ a : ℚ, 0 ≤ a ∧
      (|(a : ℝ) - commonArea ls[i] cs[j]| ≤ if commonArea ls[i] cs[j] = 0 then 0 else ((pairAcc M E σ ls[i] cs[j] : ℚ) : ℝ)) ∧
      ∀ x, (i, j, x) ∈ ii.zip (jj.zip areas) ↔ x = fin a ∧ 0 < a := by
    intro i hi j hj
    obtain ⟨r, k1, k2, k3⟩ := hls.get (List.getElem?_eq_getElem hi)
    obtain ⟨s, g1, g2, g3⟩ := hcs.get (List.getElem?_eq_getElem hj)
    by_cases ho : BoundsOverlap ls[i] cs[j]
    · obtain ⟨a, a1, a2, a3, a4⟩ := h6 i j r s _ _ E ρ σ k1 g1 k2 g2 (hgen _ (List.getElem_mem hi) _ (List.getElem_mem hj) ho) hρ
      exact ⟨a, a1, pair_err a2 a3, a4⟩
    · have hz : commonArea ls[i] cs[j] = 0 := by
        refine commonArea_zero k3.convex g3.convex ?_ fun h => ho (boundsOverlap_of_interior k3.convex g3.convex h)
        have := hshort _ (List.getElem_mem hj)
        have := hshortA _ (List.getElem_mem hi)
        unfold clipMaxNVertex maxNVertex; omega
      refine ⟨0, le_rfl, by rw [hz]; simp, fun x => ⟨fun hx => ?_, fun hx => absurd hx.2 (lt_irrefl _)⟩⟩
      obtain ⟨r', s', m1, m2, m3⟩ := h5 i j x hx
      rw [k1] at m1; cases m1
      rw [g1] at m2; cases m2
      exact absurd (boundsOverlap_face k2 g2 m3) ho
  have getD_eq : ∀ {L : List (List (Pt ℚ))} {k : ℕ} (hk : k < L.length), L.getD k [] = L[k] := fun hk => by
    rw [List.getD_eq_getElem?_getD, List.getElem?_eq_getElem hk]; rfl
  refine ⟨h', ii, jj, areas, h1, fun hap i l hl => ?_, fun hap j c hc => ?_⟩
  · obtain ⟨hi, rfl⟩ := List.getElem?_eq_some_iff.1 hl
    have hconv := hls.convex _ (List.getElem_mem hi)
    have key : |total ii (areas.map rval) i - areaOf (polyRegion ls[i] ∩ polysRegion cs)| ≤ polyTotalAcc M E σ ls[i] cs := by
      rw [← sum_common hconv hcs.convex hshort hap, ← sum_range_real cs [] (commonArea ls[i])]
      unfold polyTotalAcc
      rw [← sum_range_real cs []]
      refine table_rows h2 h3 h4 (fun j x hx => ?_) fun j hj => ?_
      · obtain ⟨_, s, _, g, _⟩ := h5 i j x hx
        exact hcs.length ▸ (List.getElem?_eq_some_iff.1 g).1
      · rw [getD_eq hj]
        exact pair i hi j hj
    refine ⟨key, fun hcov => ?_⟩
    rw [covered_area hconv hcov] at key
    exact key
  · obtain ⟨hj, rfl⟩ := List.getElem?_eq_some_iff.1 hc
    have hconv := hcs.convex _ (List.getElem_mem hj)
    have key : |total jj (areas.map rval) j - areaOf (polyRegion cs[j] ∩ polysRegion ls)| ≤ polyTotalAcc' M E σ ls cs[j] := by
      rw [← sum_common hconv hls.convex hshortA hap, ← sum_range_real ls [] (commonArea cs[j])]
      unfold polyTotalAcc'
      rw [← sum_range_real ls []]
      refine table_cols h2 h3 h4 (fun i x hx => ?_) fun i hi => ?_
      · obtain ⟨r, _, g, _⟩ := h5 i j x hx
        exact hls.length ▸ (List.getElem?_eq_some_iff.1 g).1
      · rw [getD_eq hi, commonArea_comm cs[j]]
        exact pair i hi j hj
    refine ⟨key, fun hcov => ?_⟩
    rw [covered_area hconv hcov] at key
    exact key

/-! ## An example: the two triangles cover the box -/

theorem tri_polys : PolysOf Ex.triVerts (-1) Ex.triFaces [Ex.tri1, Ex.tri2] :=
  .cons ⟨Ex.tri1_is, Ex.tri_box1.clipper⟩ (.cons ⟨Ex.tri2_is, Ex.tri_box2.clipper⟩ .nil)

/-- The triangles are on two sides of their common side. -/
theorem tri_apart : PolysApart [Ex.tri1, Ex.tri2] := by
  refine List.pairwise_pair.2 ?_
  rintro ⟨p, h1, h2⟩
  have a1 := h1 (⟨Ex.dec3, Ex.dec4⟩, ⟨Ex.dec1, Ex.dec1⟩) (by simp [Ex.tri1, sides, pairs]) (by decide +kernel)
  have a2 := h2 (⟨Ex.dec1, Ex.dec1⟩, ⟨Ex.dec3, Ex.dec4⟩) (by simp [Ex.tri2, sides, pairs]) (by decide +kernel)
  unfold orient at a1 a2
  dsimp only at a1 a2
  linarith

theorem tri_cover : polyRegion (rectPts Ex.triBox) ⊆ polysRegion [Ex.tri1, Ex.tri2] := by
  rintro ⟨x, y⟩ h
  have h : InPoly ((rectPts Ex.triBox).map realPt) ⟨x, y⟩ := h
  simp only [InPoly, rectPts, Ex.triBox, List.map_cons, List.map_nil, realPt, sides, List.cons_append, List.nil_append, pairs,
    List.forall_mem_cons, List.not_mem_nil, false_imp_iff, implies_true, and_true, orient, Ex.dec2, Ex.dec3] at h
  push_cast at h
  obtain ⟨b1, b2, b3, b4⟩ := h
  have b1 : (3602879701896397 : ℝ) / 2 ^ 54 ≤ y := by norm_num at b1 ⊢; linarith
  have b2 : x ≤ (5404319552844595 : ℝ) / 2 ^ 54 := by norm_num at b2 ⊢; linarith
  have b3 : y ≤ (5404319552844595 : ℝ) / 2 ^ 54 := by norm_num at b3 ⊢; linarith
  have b4 : (3602879701896397 : ℝ) / 2 ^ 54 ≤ x := by norm_num at b4 ⊢; linarith
  rcases le_total (orient (realPt ⟨Ex.dec1, Ex.dec1⟩) (realPt ⟨Ex.dec3, Ex.dec4⟩) ⟨x, y⟩) 0 with ho | ho
  · refine ⟨Ex.tri1, by simp, ?_⟩
    show InPoly (Ex.tri1.map realPt) ⟨x, y⟩
    simp only [InPoly, Ex.tri1, List.map_cons, List.map_nil, realPt, sides, List.cons_append, List.nil_append, pairs,
      List.forall_mem_cons, List.not_mem_nil, false_imp_iff, implies_true, and_true, orient, Ex.dec1, Ex.dec2, Ex.dec3, Ex.dec4] at ho ⊢
    push_cast at ho ⊢
    norm_num at b1 b2 b3 b4 ho ⊢
    refine ⟨?_, ?_, ?_⟩ <;> linarith
  · refine ⟨Ex.tri2, by simp, ?_⟩
    show InPoly (Ex.tri2.map realPt) ⟨x, y⟩
    simp only [InPoly, Ex.tri2, List.map_cons, List.map_nil, realPt, sides, List.cons_append, List.nil_append, pairs,
      List.forall_mem_cons, List.not_mem_nil, false_imp_iff, implies_true, and_true, orient, Ex.dec1, Ex.dec2, Ex.dec3, Ex.dec4] at ho ⊢
    push_cast at ho ⊢
    norm_num at b1 b2 b3 b4 ho ⊢
    refine ⟨?_, ?_, ?_⟩ <;> linarith

/-- The errors of all pairs bound the accuracy of a total. -/
theorem polyTotalAcc_le {E σ : ℚ} {l : List (Pt ℚ)} {cs : List (List (Pt ℚ))} (h : ∀ c ∈ cs, 0 ≤ pairAcc M E σ l c) :
    polyTotalAcc M E σ l cs ≤ ((cs.map (pairAcc M E σ l)).sum : ℚ) := by
  classical
  unfold polyTotalAcc
  rw [Rat.cast_list_sum, List.map_map]
  refine List.sum_le_sum fun c hc => ?_
  simp only [Function.comp_apply]
  split
  · exact_mod_cast h c hc
  · exact le_rfl

example : ∃ (t : CellTree Fl) (ii jj : List Nat) (areas : List Fl), Makes Fl.env Ex.triVerts Ex.triFaces (-1) 4 2 t ∧
    t.intersectBoxes ([Ex.triBox].map fbox) 1 [0] List.range = .ok (ii, jj, areas) ∧
    |total ii (areas.map rval) 0 - 1 / 100| ≤ 1 / 10 ^ 8 := by
  obtain ⟨t, h1, _⟩ := Ex.tri_run
  obtain ⟨ii, jj, areas, g1, g2⟩ := C98_box_totals (M := 1 / 2) Ex.tri_good h1 (by norm_num) (by norm_num) tri_polys tri_apart
    (boxes := [Ex.triBox]) (by decide +kernel) (E := 1 / 3) (ρ := 1 / 40) (σ := 1 / 20) (by
      intro q hq c hc _
      simp only [List.mem_cons, List.not_mem_nil, or_false] at hq hc
      subst hq
      rcases hc with rfl | rfl
      · exact Ex.tri_box1
      · exact Ex.tri_box2) (nThreads := 1) (by decide) (sched := [0]) (sched2 := List.range) (by decide) (fun n => List.Perm.refl _)
  have e := (g2 0 _ rfl).2 tri_cover
  have e1 : ([Ex.tri1, Ex.tri2].map (pairAcc (1 / 2) (1 / 3) (1 / 20) (rectPts Ex.triBox))).sum ≤ 1 / 10 ^ 9 := by decide +kernel
  have e2 := (polyTotalAcc_le (M := 1 / 2) (E := 1 / 3) (σ := 1 / 20) (l := rectPts Ex.triBox) (cs := [Ex.tri1, Ex.tri2])
    (by decide +kernel)).trans (cast_small e1)
  have e3 : |(Ex.triBox.xmax - Ex.triBox.xmin) * (Ex.triBox.ymax - Ex.triBox.ymin) - 1 / 100| ≤ 1 / 10 ^ 9 := by decide +kernel
  have e4 : |(((Ex.triBox.xmax - Ex.triBox.xmin) * (Ex.triBox.ymax - Ex.triBox.ymin) : ℚ) : ℝ) - 1 / 100| ≤ 1 / 10 ^ 9 := by
    have := cast_small e3
    rw [Rat.cast_abs] at this
    push_cast at this ⊢
    exact this
  refine ⟨t, ii, jj, areas, h1, g1, ?_⟩
  have e5 := e.trans e2
  rw [abs_le] at e4 e5 ⊢
  constructor <;> linarith [e4.1, e4.2, e5.1, e5.2]

/-- The total of a query triangle that is not covered by the mesh. -/
example : ∃ (t : CellTree Fl) (h' : Heap) (ii jj : List Nat) (areas : List Fl), Makes Fl.env Ex.triVerts Ex.triFaces (-1) 4 2 t ∧
    t.intersectFacesH Fl.env [Ex.triQueryFaces] Ex.triQueryVerts 0 (-1) 1 [0] [0] List.range List.range = .ok (h', ii, jj, areas) ∧
    |total ii (areas.map rval) 0 - areaOf (polyRegion Ex.triQuery ∩ polysRegion [Ex.tri1, Ex.tri2])| ≤ 1 / 10 ^ 9 := by
  obtain ⟨t, h1, _⟩ := Ex.tri_run
  obtain ⟨h', ii, jj, areas, g1, g2, _⟩ := C98_face_totals (M := 1 / 2) Ex.tri_good h1 (by norm_num) (by norm_num) tri_polys
    Ex.triQuery_valid (by decide) (ls := [Ex.triQuery]) (.cons ⟨Ex.triQuery_is, Ex.tri_query1.subject⟩ .nil)
    (E := 1 / 3) (ρ := 1 / 40) (σ := 1 / 20) (by
      intro l hl c hc _
      simp only [List.mem_cons, List.not_mem_nil, or_false] at hl hc
      subst hl
      rcases hc with rfl | rfl
      · exact Ex.tri_query1
      · exact Ex.tri_query2) (by norm_num) (h := [Ex.triQueryFaces]) (ref := 0) rfl (nThreads := 1) (by decide) (sched := [0])
    (sched1 := [0]) (sched2 := List.range) (sched3 := List.range) (by decide) (by decide) (fun n => List.Perm.refl _)
    (fun n => List.Perm.refl _)
  have e1 : ([Ex.tri1, Ex.tri2].map (pairAcc (1 / 2) (1 / 3) (1 / 20) Ex.triQuery)).sum ≤ 1 / 10 ^ 9 := by decide +kernel
  exact ⟨t, h', ii, jj, areas, h1, g1, (g2 tri_apart 0 _ rfl).1.trans ((polyTotalAcc_le (by decide +kernel)).trans (cast_small e1))⟩

end Celltree.Fl
