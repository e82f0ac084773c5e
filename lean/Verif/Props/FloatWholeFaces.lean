import Verif.Proofs.FloatWhole
import Verif.Props.FloatWhole
import Verif.Props.FloatFaces

/-!
# Overlap of faces at integer coordinates in binary64: C122
-/

set_option linter.unusedSectionVars false

namespace Celltree.Fl

variable {vertices verticesA : List (Pt Fl)} {faces facesA : IntArr} {fill nBuckets cellsPerLeaf : Int} {t : CellTree Fl}

/-- The exact normal of a side. -/
def axis (s : Pt ℚ × Pt ℚ) : Pt ℚ := ⟨s.1.y - s.2.y, s.2.x - s.1.x⟩

theorem whole_nv {s : Pt ℚ × Pt ℚ} (h1 : WholePt s.1) (h2 : WholePt s.2) : nv s = axis s ∧ Whole 26 (axis s).x ∧ Whole 26 (axis s).y := by
  have w1 := h1.2.sub h2.2
  have w2 := h2.1.sub h1.1
  refine ⟨?_, w1, w2⟩
  unfold nv axis
  rw [rq_of_isRep (w1.isRep (by norm_num)), rq_of_isRep (w2.isRep (by norm_num))]

theorem whole_dl {n v : Pt ℚ} (hn : Whole 26 n.x ∧ Whole 26 n.y) (hv : WholePt v) : dl n v = along n v := by
  have w1 := hv.1.mul hn.1
  have w2 := hv.2.mul hn.2
  unfold dl along
  rw [rq_of_isRep (w1.isRep (by norm_num)), rq_of_isRep (w2.isRep (by norm_num)), rq_of_isRep ((w1.add w2).isRep (by norm_num))]
  ring

/-- The tests of one polygon are not affected by rounding: the normals and the positions along them are exact. -/
structure ExactAxes (A B : List (Pt ℚ)) : Prop where
  normal : ∀ s ∈ sides A, nv s = axis s
  position : ∀ s ∈ sides A, ∀ v, v ∈ A ∨ v ∈ B → dl (axis s) v = along (axis s) v

theorem exact_tests {A B : List (Pt ℚ)} (h : ExactAxes A B) :
    (∀ s ∈ sides A, nv s ≠ ⟨0, 0⟩ → OverlapOn (nv s) A B) ↔ ∀ s ∈ sides A, s.1 ≠ s.2 →
      (∃ v ∈ A, ∃ w ∈ B, along (axis s) w < along (axis s) v) ∧ ∃ v ∈ A, ∃ w ∈ B, along (axis s) v < along (axis s) w := by
  refine forall₂_congr fun s hs => ?_
  rw [h.normal s hs]
  have h0 : axis s ≠ ⟨0, 0⟩ ↔ s.1 ≠ s.2 := by
    refine not_congr ⟨fun h => ?_, fun h => ?_⟩
    · unfold axis at h
      injection h with g1 g2
      exact Pt.ext' (by linarith) (by linarith)
    · unfold axis; rw [h, sub_self, sub_self]
  rw [h0]
  refine forall_congr' fun _ => ?_
  have hA := fun v hv => h.position s hs v (Or.inl hv)
  have hB := fun v hv => h.position s hs v (Or.inr hv)
  unfold OverlapOn
  constructor
  · rintro ⟨⟨v, hv, w, hw, h1⟩, ⟨v', hv', w', hw', h2⟩⟩
    rw [hA v hv, hB w hw] at h1
    rw [hA v' hv', hB w' hw'] at h2
    exact ⟨⟨v, hv, w, hw, h1⟩, ⟨v', hv', w', hw', h2⟩⟩
  · rintro ⟨⟨v, hv, w, hw, h1⟩, ⟨v', hv', w', hw', h2⟩⟩
    rw [← hA v hv, ← hB w hw] at h1
    rw [← hA v' hv', ← hB w' hw'] at h2
    exact ⟨⟨v, hv, w, hw, h1⟩, ⟨v', hv', w', hw', h2⟩⟩

theorem whole_axes {A B : List (Pt ℚ)} (wA : ∀ v ∈ A, WholePt v) (wB : ∀ v ∈ B, WholePt v) : ExactAxes A B := by
  constructor
  · intro s hs
    obtain ⟨m1, m2⟩ := mem_sides_mem hs
    exact (whole_nv (wA _ m1) (wA _ m2)).1
  · intro s hs v hv
    obtain ⟨m1, m2⟩ := mem_sides_mem hs
    exact whole_dl (whole_nv (wA _ m1) (wA _ m2)).2 (hv.elim (wA v) (wB v))

theorem whole_big {l : List (Pt ℚ)} (g : ∀ v ∈ l, WholePt v) : ∀ v ∈ l, Bnd (2 ^ 400) v := fun v hv =>
  ⟨(g v hv).1.abs_le.trans (pow_le_pow_right₀ (by norm_num) (by norm_num)),
    (g v hv).2.abs_le.trans (pow_le_pow_right₀ (by norm_num) (by norm_num))⟩

/-- What `locate_faces` tests is exact if the tests are not affected by rounding. -/
theorem exact_overlap {fillA : Int} {r s : List Int} {A B : List (Pt ℚ)} {a : Box Fl} (fA : FaceIs verticesA fillA r A)
    (fB : FaceIs vertices fill s B) (cA : ConvexPoly A) (cB : ConvexPoly B) (eA : ExactAxes A B) (eB : ExactAxes B A)
    (ha : IsBBox (facePts verticesA fillA r) a) :
    ((∃ a, IsBBox (facePts verticesA fillA r) a ∧ BoxOverlapsPts a (facePts vertices fill s)) ∧
      (∀ s ∈ sides A, nv s ≠ ⟨0, 0⟩ → OverlapOn (nv s) A B) ∧ ∀ s ∈ sides B, nv s ≠ ⟨0, 0⟩ → OverlapOn (nv s) B A) ↔
      ∃ p, InInterior A p ∧ InInterior B p := by
  rw [exact_tests eA, exact_tests eB]
  constructor
  · rintro ⟨-, g1, g2⟩
    refine separating_axis cA cB ?_ ?_
    · intro x hx hne
      obtain ⟨v, hv, w, hw, hlt⟩ := (g1 x hx hne).2
      have := cA.support hx hv
      unfold axis at hlt
      rw [along_axis, along_axis] at hlt
      exact ⟨w, hw, by linarith⟩
    · intro x hx hne
      obtain ⟨v, hv, w, hw, hlt⟩ := (g2 x hx hne).2
      have := cB.support hx hv
      unfold axis at hlt
      rw [along_axis, along_axis] at hlt
      exact ⟨w, hw, by linarith⟩
  · rintro ⟨p, hp1, hp2⟩
    have key : ∀ d : Pt ℚ, d.x ≠ 0 ∨ d.y ≠ 0 → ∀ {P Q : List (Pt ℚ)}, ConvexPoly P → ConvexPoly Q → InInterior P p →
        InInterior Q p → ∃ v ∈ P, ∃ w ∈ Q, along d v < along d w := by
      intro d hd P Q hP hQ hp hq
      obtain ⟨v, hv, v1⟩ := hP.exists_lt hp hd
      obtain ⟨w, hw, w1⟩ := hQ.exists_gt hq hd
      exact ⟨v, hv, w, hw, v1.trans w1⟩
    refine ⟨⟨a, ha, ?_⟩, fun x hx hne => ⟨?_, key _ (axis_ne hne) cA cB hp1 hp2⟩,
      fun x hx hne => ⟨?_, key _ (axis_ne hne) cB cA hp2 hp1⟩⟩
    · have inb := fun v (hv : v ∈ A) => ha.contains _ ((fA.mem (fp v)).2 ⟨v, hv, rfl⟩)
      refine ⟨?_, ?_, ?_, ?_⟩
      · obtain ⟨v, hv, w, hw, hlt⟩ := key ⟨1, 0⟩ (Or.inl one_ne_zero) cA cB hp1 hp2
        unfold along at hlt
        simp only at hlt
        exact ⟨fp w, (fB.mem _).2 ⟨w, hw, rfl⟩, NumOrd.lt_of_le_of_lt (inb v hv).1 ((lt_fin _ _).2 (by linarith))⟩
      · obtain ⟨v, hv, w, hw, hlt⟩ := key ⟨-1, 0⟩ (Or.inl (by norm_num)) cA cB hp1 hp2
        unfold along at hlt
        simp only at hlt
        exact ⟨fp w, (fB.mem _).2 ⟨w, hw, rfl⟩, NumOrd.lt_of_lt_of_le ((lt_fin _ _).2 (by linarith)) (inb v hv).2.1⟩
      · obtain ⟨v, hv, w, hw, hlt⟩ := key ⟨0, 1⟩ (Or.inr one_ne_zero) cA cB hp1 hp2
        unfold along at hlt
        simp only at hlt
        exact ⟨fp w, (fB.mem _).2 ⟨w, hw, rfl⟩, NumOrd.lt_of_le_of_lt (inb v hv).2.2.1 ((lt_fin _ _).2 (by linarith))⟩
      · obtain ⟨v, hv, w, hw, hlt⟩ := key ⟨0, -1⟩ (Or.inr (by norm_num)) cA cB hp1 hp2
        unfold along at hlt
        simp only at hlt
        exact ⟨fp w, (fB.mem _).2 ⟨w, hw, rfl⟩, NumOrd.lt_of_lt_of_le ((lt_fin _ _).2 (by linarith)) (inb v hv).2.2.2⟩
    · obtain ⟨v, hv, w, hw, h⟩ := key (axis x) (axis_ne hne) cB cA hp2 hp1
      exact ⟨w, hw, v, hv, h⟩
    · obtain ⟨v, hv, w, hw, h⟩ := key (axis x) (axis_ne hne) cA cB hp1 hp2
      exact ⟨w, hw, v, hv, h⟩

theorem whole_overlap {fillA : Int} {r s : List Int} {A B : List (Pt ℚ)} {a : Box Fl} (fA : FaceIs verticesA fillA r A)
    (fB : FaceIs vertices fill s B) (cA : ConvexPoly A) (cB : ConvexPoly B) (wA : ∀ v ∈ A, WholePt v) (wB : ∀ v ∈ B, WholePt v)
    (ha : IsBBox (facePts verticesA fillA r) a) :
    ((∃ a, IsBBox (facePts verticesA fillA r) a ∧ BoxOverlapsPts a (facePts vertices fill s)) ∧
      (∀ s ∈ sides A, nv s ≠ ⟨0, 0⟩ → OverlapOn (nv s) A B) ∧ ∀ s ∈ sides B, nv s ≠ ⟨0, 0⟩ → OverlapOn (nv s) B A) ↔
      ∃ p, InInterior A p ∧ InInterior B p :=
  exact_overlap fA fB cA cB (whole_axes wA wB) (whole_axes wB wA) ha

/-- **C122**: `locate_faces` is exact in binary64 at integer coordinates of at most `2 ^ 25`: a pair of convex faces is reported if
and only if their interiors have a point in common. Faces that only touch are not reported, with any number of threads and any
schedule. -/
theorem C122_locate_faces_exact (hm : GoodMesh Fl.env vertices faces fill)
    (ht : Makes Fl.env vertices faces fill nBuckets cellsPerLeaf t)
    (hvA : ValidFaces verticesA.length (-1) facesA) (hcolA : facesA.ncol ≤ maxNVertex)
    (hnA : ∀ r ∈ facesA.rows, NumPts (facePts verticesA (-1) r))
    {nThreads : Nat} (hn : 0 < nThreads) {sched sched1 : List Nat} {sched2 : Nat → List Nat}
    (hs : sched.Perm (List.range facesA.rows.length)) (hs1 : sched1.Perm (List.range nThreads))
    (hs2 : ∀ n, (sched2 n).Perm (List.range n)) :
    ∃ rows ii jj, t.locateFaces Fl.env verticesA facesA nThreads sched sched1 sched2 = .ok (rows, ii, jj) ∧
      ∀ i j r s A B, facesA.rows[i]? = some r → faces.rows[j]? = some s →
        FaceIs verticesA (-1) r A → FaceIs vertices fill s B → ConvexPoly A → ConvexPoly B →
        (∀ v ∈ A, WholePt v) → (∀ v ∈ B, WholePt v) →
        ((i, j) ∈ ii.zip jj ↔ ∃ p, InInterior A p ∧ InInterior B p) := by
  obtain ⟨rows, ii, jj, h1, h2⟩ := locateFaces_fl hm ht hvA hcolA hnA hn hs hs1 hs2
  refine ⟨rows, ii, jj, h1, fun i j r s A B hi hj fA fB cA cB wA wB => ?_⟩
  obtain ⟨⟨a, ha⟩, h3⟩ := h2 i j r s A B hi hj fA fB (whole_big wA) (whole_big wB) cA.ne_nil cB.ne_nil
  rw [h3, whole_overlap fA fB cA cB wA wB ha]

/-! ## Examples -/

set_option synthInstance.maxSize 1000

theorem _root_.Celltree.Ex.whole_num : ∀ r ∈ Ex.wholeFaces.rows, NumPts (facePts Ex.wholeVerts (-1) r) := by
  intro r hr p hp
  have : ∀ p ∈ Ex.wholeVerts, p.x ≠ Fl.nan ∧ p.y ≠ Fl.nan := by decide +kernel
  unfold facePts at hp
  obtain ⟨k, _, hk⟩ := List.mem_filterMap.1 hp
  exact this p (List.mem_of_getElem? hk)

/-- Two cells with a slanted side in common, queried with themselves: each overlaps itself only. The theorem applies to all four
pairs. -/
example : ∃ t ii jj, Makes Fl.env Ex.wholeVerts Ex.wholeFaces (-1) 4 2 t ∧
    t.locateFaces Fl.env Ex.wholeVerts Ex.wholeFaces 1 [0, 1] [0] List.range = .ok (Ex.wholeFaces.rows, ii, jj) ∧
    ii = [0, 1] ∧ jj = [0, 1] ∧ ((0, 1) ∈ ii.zip jj ↔ ∃ p, InInterior Ex.wholeCell p ∧ InInterior Ex.wholeCell' p) := by
  obtain ⟨t, h1, h2⟩ := bind_eq_ok.1 (show (CellTree.init Fl.env Ex.wholeVerts Ex.wholeFaces (-1) 4 2 [0, 1] >>= fun t =>
    t.locateFaces Fl.env Ex.wholeVerts Ex.wholeFaces 1 [0, 1] [0] List.range) = .ok ([[0, 1, 2, 3], [1, 4, 5, 2]], [0, 1], [0, 1])
    by decide +kernel)
  have hmk : Makes Fl.env Ex.wholeVerts Ex.wholeFaces (-1) 4 2 t := ⟨_, by decide, h1⟩
  obtain ⟨rows, ii, jj, g1, g2⟩ := C122_locate_faces_exact Ex.whole_good hmk Ex.whole_good.valid (by decide) Ex.whole_num
    (nThreads := 1) (by norm_num) (sched := [0, 1]) (sched1 := [0]) (sched2 := List.range) (List.Perm.refl _) (List.Perm.refl _)
    (fun n => List.Perm.refl _)
  rw [h2] at g1
  cases g1
  exact ⟨t, _, _, hmk, h2, rfl, rfl, g2 0 1 _ _ Ex.wholeCell Ex.wholeCell' rfl rfl (by decide +kernel) (by decide +kernel)
    (by decide +kernel) (by decide +kernel) Ex.wholeCell_whole.corner Ex.wholeCell'_whole.corner⟩

/-- The limit on the coordinates is needed: of two triangles with a side in common, at integer coordinates of at most `2 ^ 28`, the
first is reported to overlap the second. -/
theorem C122_limit_matters :
    (∃ t, Makes Fl.env ([⟨241246033, 110090122⟩, ⟨153498208, 218324140⟩, ⟨66896916, 120851959⟩, ⟨228694000, 168064960⟩].map fp)
      ⟨3, [[0, 1, 2], [1, 0, 3]]⟩ (-1) 4 2 t ∧
      t.locateFaces Fl.env ([⟨241246033, 110090122⟩, ⟨153498208, 218324140⟩, ⟨66896916, 120851959⟩, ⟨228694000, 168064960⟩].map fp)
        ⟨3, [[0, 1, 2]]⟩ 1 [0] [0] List.range = .ok ([[0, 1, 2]], [0, 0], [0, 1])) ∧
    ¬ ∃ p : Pt ℚ, InInterior [⟨241246033, 110090122⟩, ⟨153498208, 218324140⟩, ⟨66896916, 120851959⟩] p ∧
      InInterior [⟨153498208, 218324140⟩, ⟨241246033, 110090122⟩, ⟨228694000, 168064960⟩] p := by
  constructor
  · obtain ⟨t, h1, h2⟩ := bind_eq_ok.1 (show (CellTree.init Fl.env ([⟨241246033, 110090122⟩, ⟨153498208, 218324140⟩,
      ⟨66896916, 120851959⟩, ⟨228694000, 168064960⟩].map fp) ⟨3, [[0, 1, 2], [1, 0, 3]]⟩ (-1) 4 2 [0, 1] >>= fun t =>
      t.locateFaces Fl.env ([⟨241246033, 110090122⟩, ⟨153498208, 218324140⟩, ⟨66896916, 120851959⟩, ⟨228694000, 168064960⟩].map fp)
        ⟨3, [[0, 1, 2]]⟩ 1 [0] [0] List.range) = .ok ([[0, 1, 2]], [0, 0], [0, 1]) by decide +kernel)
    exact ⟨t, ⟨_, by decide, h1⟩, h2⟩
  · rintro ⟨p, h1, h2⟩
    have g1 := h1 (⟨241246033, 110090122⟩, ⟨153498208, 218324140⟩) (by decide +kernel) (by decide +kernel)
    have g2 := h2 (⟨153498208, 218324140⟩, ⟨241246033, 110090122⟩) (by decide +kernel) (by decide +kernel)
    unfold orient at g1 g2
    simp only at g1 g2
    linarith

end Celltree.Fl
