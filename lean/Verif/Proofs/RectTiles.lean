import Verif.Spec.FloatRects
import Verif.Spec.Area
import Mathlib.MeasureTheory.Measure.Lebesgue.Basic
import Mathlib.Topology.Instances.Real.Lemmas

/-!
# The areas of tiles add up
-/

namespace Celltree.Fl

open MeasureTheory

/-- The points of a rectangle, with real coordinates. -/
def tile (c : Box ℚ) : Set (ℝ × ℝ) := Set.Icc (c.xmin : ℝ) c.xmax ×ˢ Set.Icc (c.ymin : ℝ) c.ymax

theorem tile_inter (a c : Box ℚ) : volume (tile a ∩ tile c) = ENNReal.ofReal ((commonX a c * commonY a c : ℚ) : ℝ) := by
  have ex : ((commonX a c : ℚ) : ℝ) = max 0 (min (a.xmax : ℝ) c.xmax - max (a.xmin : ℝ) c.xmin) := by
    unfold commonX; push_cast; rfl
  have ey : ((commonY a c : ℚ) : ℝ) = max 0 (min (a.ymax : ℝ) c.ymax - max (a.ymin : ℝ) c.ymin) := by
    unfold commonY; push_cast; rfl
  unfold tile
  rw [Set.prod_inter_prod, Set.Icc_inter_Icc, Set.Icc_inter_Icc, Measure.volume_eq_prod, Measure.prod_prod, Real.volume_Icc,
    Real.volume_Icc]
  push_cast
  rw [ENNReal.ofReal_mul (by rw [ex]; exact le_max_left _ _), ex, ey]
  congr 1
  · rw [max_comm 0, ENNReal.ofReal_max, ENNReal.ofReal_zero, max_eq_left (zero_le)]
  · rw [max_comm 0, ENNReal.ofReal_max, ENNReal.ofReal_zero, max_eq_left (zero_le)]

theorem tile_measurable (c : Box ℚ) : MeasurableSet (tile c) := measurableSet_Icc.prod measurableSet_Icc

theorem tiles_measurable (q : Box ℚ) (cs : List (Box ℚ)) : MeasurableSet (tile q ∩ {p | ∃ c ∈ cs, p ∈ tile c}) := by
  refine (tile_measurable q).inter ?_
  induction cs with
  | nil => simp
  | cons c cs ih =>
    have : {p | ∃ c' ∈ c :: cs, p ∈ tile c'} = tile c ∪ {p | ∃ c ∈ cs, p ∈ tile c} := by ext p; simp
    rw [this]
    exact (tile_measurable c).union ih

theorem common_nonneg (a c : Box ℚ) : 0 ≤ commonX a c * commonY a c := mul_nonneg (le_max_left _ _) (le_max_left _ _)

theorem tiles_volume (q : Box ℚ) {cs : List (Box ℚ)} (h : cs.Pairwise fun a c => commonX a c = 0 ∨ commonY a c = 0) :
    volume (tile q ∩ {p | ∃ c ∈ cs, p ∈ tile c}) = ENNReal.ofReal (((cs.map fun c => commonX q c * commonY q c).sum : ℚ) : ℝ) := by
  induction cs with
  | nil => simp
  | cons c cs ih =>
    rw [List.pairwise_cons] at h
    have e : tile q ∩ {p | ∃ c' ∈ c :: cs, p ∈ tile c'} = (tile q ∩ tile c) ∪ (tile q ∩ {p | ∃ c ∈ cs, p ∈ tile c}) := by
      rw [← Set.inter_union_distrib_left]; congr 1; ext p; simp
    have hd : AEDisjoint volume (tile q ∩ tile c) (tile q ∩ {p | ∃ c ∈ cs, p ∈ tile c}) := by
      have hsub : (tile q ∩ tile c) ∩ (tile q ∩ {p | ∃ c ∈ cs, p ∈ tile c}) ⊆ ⋃ c' ∈ {c' | c' ∈ cs}, tile c ∩ tile c' := by
        rintro p ⟨⟨_, p1⟩, _, c', hc', p2⟩
        exact Set.mem_biUnion hc' ⟨p1, p2⟩
      refine measure_mono_null hsub ((measure_biUnion_null_iff ?_).2 ?_)
      · exact (List.finite_toSet cs).countable
      · intro c' hc'
        rw [tile_inter]
        rcases h.1 c' hc' with h0 | h0 <;> rw [h0] <;> simp
    rw [e, measure_union₀ (tiles_measurable q cs).nullMeasurableSet hd, ih h.2, tile_inter, List.map_cons, List.sum_cons]
    push_cast
    rw [ENNReal.ofReal_add]
    · exact_mod_cast common_nonneg q c
    · have : (0 : ℚ) ≤ (cs.map fun c => commonX q c * commonY q c).sum :=
        List.sum_nonneg (by
          intro x hx
          obtain ⟨c, _, rfl⟩ := List.mem_map.1 hx
          exact common_nonneg q c)
      have h2 : (0 : ℝ) ≤ (((cs.map fun c => commonX q c * commonY q c).sum : ℚ) : ℝ) := by exact_mod_cast this
      push_cast at h2
      exact h2

/-- Points with rational coordinates are dense in a rectangle. -/
theorem tile_closure {q : Box ℚ} (hx : q.xmin < q.xmax) (hy : q.ymin < q.ymax) {S : Set (ℝ × ℝ)} (hS : IsClosed S)
    (h : ∀ p, InBox q p → ((p.x : ℝ), (p.y : ℝ)) ∈ S) : tile q ⊆ S := by
  have one : ∀ {a b : ℚ}, a < b → Set.Icc (a : ℝ) b ⊆ closure ((fun r : ℚ => (r : ℝ)) '' Set.Icc a b) := by
    intro a b hab x hx
    have hab' : (a : ℝ) < b := by exact_mod_cast hab
    rw [← closure_Ioo hab'.ne] at hx
    refine closure_minimal ?_ isClosed_closure hx
    intro y hy
    rw [Metric.mem_closure_iff]
    intro ε hε
    obtain ⟨r, h1, h2⟩ := exists_rat_btwn (show y < min (y + ε) b by rw [lt_min_iff]; exact ⟨by linarith, hy.2⟩)
    rw [lt_min_iff] at h2
    refine ⟨r, ⟨r, ⟨?_, ?_⟩, rfl⟩, ?_⟩
    · have : (a : ℝ) < r := hy.1.trans h1
      exact le_of_lt (by exact_mod_cast this)
    · exact le_of_lt (by exact_mod_cast h2.2)
    · rw [Real.dist_eq, abs_sub_comm, abs_of_pos (by linarith)]; linarith
  rintro ⟨x, y⟩ ⟨h1, h2⟩
  have : (x, y) ∈ closure (((fun r : ℚ => (r : ℝ)) '' Set.Icc q.xmin q.xmax) ×ˢ ((fun r : ℚ => (r : ℝ)) '' Set.Icc q.ymin q.ymax)) := by
    rw [closure_prod_eq]
    exact ⟨one hx h1, one hy h2⟩
  refine closure_minimal ?_ hS this
  rintro ⟨_, _⟩ ⟨⟨r, hr, rfl⟩, ⟨s, hs, rfl⟩⟩
  exact h ⟨r, s⟩ ⟨hr.1, hr.2, hs.1, hs.2⟩

/-- If rectangles without common areas cover `q`, what they have in common with `q` adds up to the area of `q`. -/
theorem Tiles.sum {q : Box ℚ} {cs : List (Box ℚ)} (hx : q.xmin < q.xmax) (hy : q.ymin < q.ymax) (h : Tiles cs q) :
    (cs.map fun c => commonX q c * commonY q c).sum = (q.xmax - q.xmin) * (q.ymax - q.ymin) := by
  have hcl : IsClosed {p | ∃ c ∈ cs, p ∈ tile c} := by
    have : {p | ∃ c ∈ cs, p ∈ tile c} = ⋃ c ∈ {c | c ∈ cs}, tile c := by ext p; simp
    rw [this]
    exact (List.finite_toSet cs).isClosed_biUnion fun c _ => isClosed_Icc.prod isClosed_Icc
  have hsub : tile q ⊆ {p | ∃ c ∈ cs, p ∈ tile c} := tile_closure hx hy hcl (by
    intro p hp
    obtain ⟨c, hc, h1, h2, h3, h4⟩ := h.cover p hp
    refine ⟨c, hc, ⟨?_, ?_⟩, ?_, ?_⟩ <;> dsimp only
    · exact_mod_cast h1
    · exact_mod_cast h2
    · exact_mod_cast h3
    · exact_mod_cast h4)
  have h1 := tiles_volume q h.apart
  have h2 := tile_inter q q
  rw [Set.inter_self] at h2
  rw [Set.inter_eq_left.2 hsub, h2] at h1
  have hs : (0 : ℚ) ≤ (cs.map fun c => commonX q c * commonY q c).sum :=
    List.sum_nonneg (by
      intro x hx
      obtain ⟨c, _, rfl⟩ := List.mem_map.1 hx
      exact common_nonneg q c)
  rw [ENNReal.ofReal_eq_ofReal_iff (by exact_mod_cast common_nonneg q q) (by exact_mod_cast hs)] at h1
  have h3 : commonX q q * commonY q q = (cs.map fun c => commonX q c * commonY q c).sum := by exact_mod_cast h1
  rw [← h3]
  unfold commonX commonY
  rw [min_self, max_self, min_self, max_self, max_eq_right (by linarith), max_eq_right (by linarith)]

end Celltree.Fl
