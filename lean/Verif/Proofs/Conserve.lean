import Verif.Proofs.PairArea
import Mathlib.MeasureTheory.Constructions.BorelSpace.Order

/-!
# Sums of areas
-/

namespace Celltree

open MeasureTheory

theorem continuous_orient (a b : Pt ℝ) : Continuous fun p : ℝ × ℝ => orient a b (toPt p) := by
  unfold orient toPt; fun_prop

theorem region_measurable (l : List (Pt ℝ)) : MeasurableSet (region l) := by
  have : region l = ⋂ s ∈ {s | s ∈ sides l}, {p : ℝ × ℝ | 0 ≤ orient s.1 s.2 (toPt p)} := by
    ext p
    simp only [Set.mem_iInter]
    rfl
  rw [this]
  refine (isClosed_biInter fun s _ => isClosed_le continuous_const (continuous_orient _ _)).measurableSet

theorem faceRegion_measurable (l : List (Pt ℝ)) : MeasurableSet (faceRegion l) :=
  (region_measurable l).union (region_measurable l.reverse)

theorem boxRegion_measurable (q : Box ℝ) : MeasurableSet (boxRegion q) := by
  have : boxRegion q = Set.Icc q.xmin q.xmax ×ˢ Set.Icc q.ymin q.ymax := by
    ext p
    simp only [boxRegion, InBox, Set.mem_prod, Set.mem_Icc]
    exact ⟨fun h => ⟨⟨h.1, h.2.1⟩, h.2.2.1, h.2.2.2⟩, fun h => ⟨h.1.1, h.1.2, h.2.1, h.2.2⟩⟩
  rw [this]
  exact measurableSet_Icc.prod measurableSet_Icc

/-- The boundary of a polygon has no area. -/
theorem volume_boundary (l : List (Pt ℝ)) : volume {p : ℝ × ℝ | InPoly l (toPt p) ∧ ¬ InInterior l (toPt p)} = 0 := by
  refine measure_mono_null (t := ⋃ s ∈ {s | s ∈ sides l ∧ s.1 ≠ s.2}, {p : ℝ × ℝ | orient s.1 s.2 (toPt p) = 0}) ?_ ?_
  · rintro p ⟨h1, h2⟩
    unfold InInterior at h2
    push Not at h2
    obtain ⟨s, hs, hne, h⟩ := h2
    simp only [Set.mem_iUnion]
    exact ⟨s, ⟨hs, hne⟩, le_antisymm h (h1 s hs)⟩
  · refine (measure_biUnion_null_iff ?_).2 fun s hs => volume_line hs.2
    exact ((List.finite_toSet (sides l)).subset fun s hs => hs.1).countable

/-- Convex faces without a common interior point have an intersection of area zero. -/
theorem volume_inter_of_disjoint {l l' : List (Pt ℝ)} (h : ConvexFace l) (h' : ConvexFace l')
    (hd : ¬ ∃ p, InFaceInterior l p ∧ InFaceInterior l' p) : volume (faceRegion l ∩ faceRegion l') = 0 := by
  have key : ∀ {l : List (Pt ℝ)}, ConvexFace l → ∃ B : Set (ℝ × ℝ), volume B = 0 ∧
      ∀ p ∈ faceRegion l, p ∈ B ∨ InFaceInterior l (toPt p) := by
    intro l h
    rcases h with h | ⟨h, _⟩
    · refine ⟨_, volume_boundary l, fun p hp => ?_⟩
      have hp' : InPoly l (toPt p) := h.inFace.1 hp
      by_cases hi : InInterior l (toPt p)
      · exact Or.inr (h.inFaceInterior.2 hi)
      · exact Or.inl ⟨hp', hi⟩
    · refine ⟨_, volume_boundary l.reverse, fun p hp => ?_⟩
      have hp' : InPoly l.reverse (toPt p) := h.inFace.1 (inFace_reverse.2 hp)
      by_cases hi : InInterior l.reverse (toPt p)
      · exact Or.inr (inFaceInterior_reverse.1 (h.inFaceInterior.2 hi))
      · exact Or.inl ⟨hp', hi⟩
  obtain ⟨B, hB, h1⟩ := key h
  obtain ⟨B', hB', h2⟩ := key h'
  refine measure_mono_null (t := B ∪ B') ?_ (measure_union_null hB hB')
  rintro p ⟨p1, p2⟩
  rcases h1 p p1 with g | g
  · exact Or.inl g
  · rcases h2 p p2 with g' | g'
    · exact Or.inr g'
    · exact (hd ⟨_, g, g'⟩).elim

/-- The sum of the areas that one set has in common with the others. -/
theorem sum_areas {T : List (ℕ × ℝ)} {n : ℕ} {S : ℕ → Set (ℝ × ℝ)} {R : Set (ℝ × ℝ)} (hnd : (T.map (·.1)).Nodup)
    (hT : ∀ j a, (j, a) ∈ T ↔ j < n ∧ a = areaOf (R ∩ S j) ∧ 0 < a) (hR : MeasurableSet R) (hfin : volume R ≠ ⊤)
    (hS : ∀ j < n, MeasurableSet (S j)) (hd : ∀ j < n, ∀ k < n, j ≠ k → volume (S j ∩ S k) = 0) :
    (T.map (·.2)).sum = areaOf (R ∩ {p | ∃ j < n, p ∈ S j}) := by
  have h1 : (T.map (·.2)).sum = ((T.map (·.1)).map fun j => areaOf (R ∩ S j)).sum := by
    rw [List.map_map]
    congr 1
    refine List.map_congr_left fun x hx => ?_
    exact ((hT x.1 x.2).1 hx).2.1
  have h2 : ((T.map (·.1)).map fun j => areaOf (R ∩ S j)).sum = ∑ j ∈ (T.map (·.1)).toFinset, areaOf (R ∩ S j) :=
    (List.sum_toFinset _ hnd).symm
  have h3 : ∑ j ∈ (T.map (·.1)).toFinset, areaOf (R ∩ S j) = ∑ j ∈ Finset.range n, areaOf (R ∩ S j) := by
    refine Finset.sum_subset ?_ ?_
    · intro j hj
      rw [List.mem_toFinset, List.mem_map] at hj
      obtain ⟨x, hx, rfl⟩ := hj
      exact Finset.mem_range.2 ((hT x.1 x.2).1 hx).1
    · intro j hj hj'
      by_contra hne
      refine hj' ?_
      rw [List.mem_toFinset, List.mem_map]
      exact ⟨(j, areaOf (R ∩ S j)), (hT _ _).2 ⟨Finset.mem_range.1 hj, rfl,
        lt_of_le_of_ne ENNReal.toReal_nonneg (Ne.symm hne)⟩, rfl⟩
  rw [h1, h2, h3]
  have h4 : R ∩ {p | ∃ j < n, p ∈ S j} = ⋃ j ∈ Finset.range n, R ∩ S j := by
    ext p
    simp only [Set.mem_inter_iff, Set.mem_iUnion, Finset.mem_range, Set.mem_ofPred_eq]
    tauto
  have h5 : volume (⋃ j ∈ Finset.range n, R ∩ S j) = ∑ j ∈ Finset.range n, volume (R ∩ S j) := by
    refine measure_biUnion_finset₀ ?_ ?_
    · intro j hj k hk hne
      refine measure_mono_null ?_ (hd j (Finset.mem_range.1 hj) k (Finset.mem_range.1 hk) hne)
      rintro p ⟨p1, p2⟩
      exact ⟨p1.2, p2.2⟩
    · intro j hj
      exact (hR.inter (hS j (Finset.mem_range.1 hj))).nullMeasurableSet
  unfold areaOf
  rw [h4, h5, ENNReal.toReal_sum]
  intro j _
  exact ne_top_of_le_ne_top hfin (measure_mono Set.inter_subset_left)

/-- The rows for one query of a table of pairs with areas. -/
theorem nodup_row {α : Type} {ii jj : List ℕ} {areas : List α} (h1 : ii.length = jj.length) (h2 : jj.length = areas.length)
    (hnd : (ii.zip jj).Nodup) (i : ℕ) :
    ((((ii.zip (jj.zip areas)).filter fun x => x.1 = i).map (·.2)).map (·.1)).Nodup := by
  have e : (ii.zip (jj.zip areas)).map (fun x => (x.1, x.2.1)) = ii.zip jj := by
    clear hnd
    induction ii generalizing jj areas with
    | nil => rfl
    | cons a ii ih =>
      match jj, areas, h1, h2 with
      | b :: jj, c :: areas, h1, h2 =>
        simp only [List.zip_cons_cons, List.map_cons]
        rw [ih (by simpa using h1) (by simpa using h2)]
  rw [← e] at hnd
  have hsub := hnd.sublist (List.Sublist.map (fun x : ℕ × ℕ × α => (x.1, x.2.1))
    (List.filter_sublist (p := fun x => decide (x.1 = i)) (l := ii.zip (jj.zip areas))))
  rw [List.map_map]
  refine List.Nodup.of_map (fun j => (i, j)) ?_
  rw [List.map_map]
  convert hsub using 1
  refine List.map_congr_left fun x hx => ?_
  have := (List.mem_filter.1 hx).2
  simp only [decide_eq_true_eq] at this
  simp [this]

theorem nodup_col {α : Type} {ii jj : List ℕ} {areas : List α} (h1 : ii.length = jj.length) (h2 : jj.length = areas.length)
    (hnd : (ii.zip jj).Nodup) (j : ℕ) :
    ((((ii.zip (jj.zip areas)).filter fun x => x.2.1 = j).map fun x => (x.1, x.2.2)).map (·.1)).Nodup := by
  have e : (ii.zip (jj.zip areas)).map (fun x => (x.1, x.2.1)) = ii.zip jj := by
    clear hnd
    induction ii generalizing jj areas with
    | nil => rfl
    | cons a ii ih =>
      match jj, areas, h1, h2 with
      | b :: jj, c :: areas, h1, h2 =>
        simp only [List.zip_cons_cons, List.map_cons]
        rw [ih (by simpa using h1) (by simpa using h2)]
  rw [← e] at hnd
  have hsub := hnd.sublist (List.Sublist.map (fun x : ℕ × ℕ × α => (x.1, x.2.1))
    (List.filter_sublist (p := fun x => decide (x.2.1 = j)) (l := ii.zip (jj.zip areas))))
  rw [List.map_map]
  refine List.Nodup.of_map (fun i => (i, j)) ?_
  rw [List.map_map]
  convert hsub using 1
  refine List.map_congr_left fun x hx => ?_
  have := (List.mem_filter.1 hx).2
  simp only [decide_eq_true_eq] at this
  simp [this]

theorem total_row {α : Type} [AddMonoid α] {ii jj : List ℕ} {areas : List α} (h1 : ii.length = jj.length) (h2 : jj.length = areas.length) (i : ℕ) :
    total ii areas i = ((((ii.zip (jj.zip areas)).filter fun x => x.1 = i).map (·.2)).map (·.2)).sum := by
  unfold total
  induction ii generalizing jj areas with
  | nil => rfl
  | cons a ii ih =>
    match jj, areas, h1, h2 with
    | b :: jj, c :: areas, h1, h2 =>
      have := ih (jj := jj) (areas := areas) (by simpa using h1) (by simpa using h2)
      simp only [List.zip_cons_cons, List.filter_cons]
      split <;> simp [this]

theorem total_col {α : Type} [AddMonoid α] {ii jj : List ℕ} {areas : List α} (h1 : ii.length = jj.length) (h2 : jj.length = areas.length) (j : ℕ) :
    total jj areas j = ((((ii.zip (jj.zip areas)).filter fun x => x.2.1 = j).map fun x => (x.1, x.2.2)).map (·.2)).sum := by
  unfold total
  induction ii generalizing jj areas with
  | nil =>
    match jj, h1 with
    | [], _ => rfl
  | cons a ii ih =>
    match jj, areas, h1, h2 with
    | b :: jj, c :: areas, h1, h2 =>
      have := ih (jj := jj) (areas := areas) (by simpa using h1) (by simpa using h2)
      simp only [List.zip_cons_cons, List.filter_cons]
      split <;> simp [this]

end Celltree
