import Verif.Props.Conserve
import Verif.Props.FloatRects
import Verif.Props.AffineAreas

/-!
# C100: a mesh intersected with itself
-/

namespace Celltree

theorem diagonal_table {α : Type} {n : Nat} {ii jj : List Nat} {areas : List α} (h1 : ii.length = jj.length)
    (h2 : jj.length = areas.length) (h3 : (ii.zip jj).Nodup) (h4 : ii.Pairwise (· ≤ ·))
    (h5 : ∀ i j a, (i, j, a) ∈ ii.zip (jj.zip areas) → i = j ∧ i < n)
    (h6 : ∀ i < n, ∃ a, (i, i, a) ∈ ii.zip (jj.zip areas)) : ii = List.range n ∧ jj = List.range n ∧ areas.length = n := by
  have hz : ∀ k (hk : k < ii.length), (ii[k], jj[k], areas[k]) ∈ ii.zip (jj.zip areas) := by
    intro k hk
    refine List.mem_iff_getElem.2 ⟨k, by simp; omega, by simp⟩
  have hj : jj = ii := by
    refine List.ext_getElem h1.symm fun k hk hk' => ((h5 _ _ _ (hz k hk')).1).symm
  subst hj
  have hnd : jj.Nodup := by
    rw [List.nodup_iff_injective_get] at h3 ⊢
    intro a b hab
    have := @h3 ⟨a, by simp⟩ ⟨b, by simp⟩ (by simpa using hab)
    exact Fin.ext (by simpa using this)
  have hp : jj.Perm (List.range n) := by
    rw [List.perm_ext_iff_of_nodup hnd List.nodup_range]
    intro i
    rw [List.mem_range]
    constructor
    · intro hi
      obtain ⟨k, hk, rfl⟩ := List.mem_iff_getElem.1 hi
      exact (h5 _ _ _ (hz k hk)).2
    · intro hi
      obtain ⟨a, ha⟩ := h6 i hi
      exact (List.of_mem_zip ha).1
  have e := hp.eq_of_pairwise' h4 List.pairwise_le_range
  exact ⟨e, e, by rw [← h2, e]; simp⟩

section
variable {env : Env ℝ} {vertices : List (Pt ℝ)} {faces : IntArr} {fill nBuckets cellsPerLeaf : Int} {t : CellTree ℝ}

theorem ConvexFace.area_pos {l : List (Pt ℝ)} (h : ConvexFace l) : 0 < areaOf (faceRegion l) := by
  rcases h with h | ⟨h, _⟩
  · rw [← h.region_eq_faceRegion, h.areaOf_region]; exact h.shoelace_pos
  · rw [← faceRegion_reverse, ← h.region_eq_faceRegion, h.areaOf_region]; exact h.shoelace_pos

/-- **C100** (real numbers): for a mesh of convex faces that do not overlap, and a query with the same faces (in any numbering of
the vertices, with any order and first corner), `intersect_faces` reports exactly every face with itself, in order, with its area. -/
theorem C100_itself (hm : GoodMesh env vertices faces fill)
    (ht : Makes env vertices faces fill nBuckets cellsPerLeaf t)
    (hconv : ∀ r ∈ faces.rows, ConvexFace (facePts vertices fill r) ∧ SmallPts env (facePts vertices fill r))
    (hno : NoOverlap vertices fill faces)
    {verticesA : List (Pt ℝ)} {facesA : IntArr} {fillA : Int} (hvA : ValidFaces verticesA.length fillA facesA)
    (hcolA : facesA.ncol ≤ maxNVertex)
    (hconvA : ∀ r ∈ facesA.rows, ConvexFace (facePts verticesA fillA r) ∧ SmallPts env (facePts verticesA fillA r))
    (hsame : List.Forall₂ (fun r s => ∀ p, InFace (facePts verticesA fillA r) p ↔ InFace (facePts vertices fill s) p)
      facesA.rows faces.rows)
    {h : Heap} {ref : Nat} (href : h[ref]? = some facesA)
    {nThreads : Nat} (hn : 0 < nThreads) {sched sched1 : List Nat} {sched2 sched3 : Nat → List Nat}
    (hs : sched.Perm (List.range facesA.rows.length)) (hs1 : sched1.Perm (List.range nThreads))
    (hs2 : ∀ n, (sched2 n).Perm (List.range n)) (hs3 : ∀ n, (sched3 n).Perm (List.range n)) :
    ∃ h', t.intersectFacesH env h verticesA ref fillA nThreads sched sched1 sched2 sched3 =
        .ok (h', List.range faces.rows.length, List.range faces.rows.length,
          faces.rows.map fun s => areaOf (faceRegion (facePts vertices fill s))) := by
  obtain ⟨h', ii, jj, areas, h1, h2, h3, h4, h5, h6⟩ :=
    C36_intersect_faces_measure hm ht hconv hvA hcolA hconvA href hn hs hs1 hs2 hs3
  have hlen := hsame.length_eq
  have hsm : ∀ (i : Nat) r s, facesA.rows[i]? = some r → faces.rows[i]? = some s →
      faceRegion (facePts verticesA fillA r) = faceRegion (facePts vertices fill s) := by
    intro i r s hr hs'
    obtain ⟨k1, rfl⟩ := List.getElem?_eq_some_iff.1 hr
    obtain ⟨k2, rfl⟩ := List.getElem?_eq_some_iff.1 hs'
    have := (List.forall₂_iff_get.1 hsame).2 i k1 k2
    exact Set.ext fun p => this _
  have hself : ∀ i a, (i, i, a) ∈ ii.zip (jj.zip areas) ↔ ∃ s, faces.rows[i]? = some s ∧ a = areaOf (faceRegion (facePts vertices fill s)) := by
    intro i a
    rw [h6]
    constructor
    · rintro ⟨r, s, hr, hs', ha, _⟩
      rw [hsm i r s hr hs', Set.inter_self] at ha
      exact ⟨s, hs', ha⟩
    · rintro ⟨s, hs', ha⟩
      obtain ⟨k, rfl⟩ := List.getElem?_eq_some_iff.1 hs'
      refine ⟨facesA.rows[i], _, List.getElem?_eq_getElem (by omega), hs', ?_, ?_⟩
      · rw [hsm i _ _ (List.getElem?_eq_getElem (by omega)) hs', Set.inter_self]; exact ha
      · rw [ha]; exact ConvexFace.area_pos (hconv _ (List.getElem_mem k)).1
  obtain ⟨e1, e2, e3⟩ := diagonal_table (n := faces.rows.length) h2 h3 h4 h5 (by
    intro i j a hmem
    obtain ⟨r, s, hr, hs', ha, hpos⟩ := (h6 i j a).1 hmem
    have hi := (List.getElem?_eq_some_iff.1 hr).1
    have hj := (List.getElem?_eq_some_iff.1 hs').1
    refine ⟨?_, by omega⟩
    by_contra hne
    have := hno.volume (fun r hr => (hconv r hr).1) i (by omega) j hj hne
    simp only [List.getD_eq_getElem?_getD, List.getElem?_eq_getElem (show i < faces.rows.length by omega), hs', Option.getD_some] at this
    rw [hsm i r _ hr (List.getElem?_eq_getElem (by omega))] at ha
    rw [ha] at hpos
    unfold areaOf at hpos
    rw [this] at hpos
    simp at hpos) (fun i hi => ⟨_, (hself i _).2 ⟨_, List.getElem?_eq_getElem hi, rfl⟩⟩)
  subst e1 e2
  refine ⟨h', h1.trans ?_⟩
  congr 4
  refine List.ext_getElem (by simpa using e3) fun k hk hk' => ?_
  have hmem : (k, k, areas[k]) ∈ (List.range faces.rows.length).zip ((List.range faces.rows.length).zip areas) :=
    List.mem_iff_getElem.2 ⟨k, by simp; omega, by simp⟩
  obtain ⟨s, hs', ha⟩ := (hself k _).1 hmem
  rw [ha]
  obtain ⟨_, rfl⟩ := List.getElem?_eq_some_iff.1 hs'
  simp

/-- The example mesh with itself, the vertices in another order and all faces reversed. -/
example : ∃ t h', Makes Ex.realEnv Ex.realVerts Ex.realFaces (-1) 4 1 t ∧
    t.intersectFacesH Ex.realEnv [⟨5, [[2, 3, 4, 5, 9], [1, 3, 4, 9, 9], [0, 1, 3, 9, 9]]⟩] Ex.realVerts.reverse 0 9 2 [2, 0, 1] [1, 0]
        List.range List.range =
      .ok (h', [0, 1, 2], [0, 1, 2], Ex.realFaces.rows.map fun s => areaOf (faceRegion (facePts Ex.realVerts (-1) s))) := by
  obtain ⟨t, ht⟩ := Ex.real_makes
  have hA : ∀ {P : List (Pt ℝ) → Prop}, (∀ r ∈ Ex.realFaces.rows, P (facePts Ex.realVerts (-1) r).reverse) →
      ∀ r ∈ [[2, 3, 4, 5, 9], [1, 3, 4, 9, 9], [0, 1, 3, 9, 9]], P (facePts Ex.realVerts.reverse 9 r) := by
    intro P hP r hr
    simp only [List.mem_cons, List.not_mem_nil, or_false] at hr
    rcases hr with rfl | rfl | rfl
    · exact hP [0, 1, 2, 3] (by decide)
    · exact hP [1, 2, 4, -1] (by decide)
    · exact hP [2, 4, 5, -1] (by decide)
  have hsr : ∀ r ∈ Ex.realFaces.rows, SmallPts Ex.realEnv (facePts Ex.realVerts (-1) r).reverse := by
    intro r hr
    obtain ⟨B, b1, b2⟩ := (Ex.real_small r hr).1
    exact ⟨B, fun v hv => b1 v (by simpa using hv), b2⟩
  obtain ⟨h', h1⟩ := C100_itself (verticesA := Ex.realVerts.reverse) (fillA := 9) (h := [_]) (ref := 0) (nThreads := 2)
    (facesA := ⟨5, [[2, 3, 4, 5, 9], [1, 3, 4, 9, 9], [0, 1, 3, 9, 9]]⟩) (sched := [2, 0, 1]) (sched1 := [1, 0])
    (sched2 := List.range) (sched3 := List.range) Ex.real_good ht
    (fun r hr => ⟨Ex.real_convex r hr, (Ex.real_small r hr).1⟩) Ex.real_noOverlap
    ⟨by decide, by
      intro r hr
      simp only [List.mem_cons, List.not_mem_nil, or_false] at hr
      rcases hr with rfl | rfl | rfl <;> exact ⟨by decide, by decide, by decide⟩⟩
    (by decide)
    (hA (P := fun l => ConvexFace l ∧ SmallPts Ex.realEnv l) fun r hr => ⟨StrictlyConvex.convexFace (by rw [List.reverse_reverse]; exact (Ex.real_strict r hr).symm), hsr r hr⟩)
    (by
      have hrev : ∀ (l : List (Pt ℝ)) p, InFace l.reverse p ↔ InFace l p := by
        intro l p
        unfold InFace
        rw [List.reverse_reverse]
        exact or_comm
      refine .cons (hrev [⟨0, 0⟩, ⟨2, 0⟩, ⟨2, 2⟩, ⟨0, 2⟩]) (.cons (hrev [⟨2, 0⟩, ⟨2, 2⟩, ⟨4, 1⟩]) (.cons (hrev [⟨2, 2⟩, ⟨4, 1⟩, ⟨4, 3⟩]) .nil)))
    rfl (by decide) (by decide) (by decide) (fun n => List.Perm.refl _) (fun n => List.Perm.refl _)
  exact ⟨t, h', ht, h1⟩

end
end Celltree

namespace Celltree.Fl

variable {vertices : List (Pt Fl)} {faces : IntArr} {fill nBuckets cellsPerLeaf : Int} {t : CellTree Fl}
  {verticesA : List (Pt Fl)} {facesA : IntArr} {fillA : Int} {M : ℚ} {cs : List (Box ℚ)}

theorem common_self {c : Box ℚ} (h : c.xmin ≤ c.xmax ∧ c.ymin ≤ c.ymax) :
    commonX c c = c.xmax - c.xmin ∧ commonY c c = c.ymax - c.ymin := by
  unfold commonX commonY
  simp [h.1, h.2]

/-- **C100** (binary64): for a mesh of rectangles without overlap whose sides are at least `M / 2 ^ 38` long, and a query with the
same rectangles, `intersect_faces` reports exactly every face with itself, in order, with its area up to rounding. -/
theorem C100_itself_rectangles (hm : GoodMesh Fl.env vertices faces fill)
    (ht : Makes Fl.env vertices faces fill nBuckets cellsPerLeaf t) (hM : 1 / 2 ^ 100 ≤ M) (hM' : M ≤ 2 ^ 198)
    (hrect : RectsOf M vertices fill faces cs)
    (hvA : ValidFaces verticesA.length fillA facesA) (hcolA : facesA.ncol ≤ maxNVertex)
    (hrectA : RectsOf M verticesA fillA facesA cs)
    (hapart : cs.Pairwise fun a c => commonX a c = 0 ∨ commonY a c = 0)
    (hsize : ∀ c ∈ cs, c.xmin + M / 2 ^ 38 ≤ c.xmax ∧ c.ymin + M / 2 ^ 38 ≤ c.ymax)
    {h : Heap} {ref : Nat} (href : h[ref]? = some facesA)
    {nThreads : Nat} (hn : 0 < nThreads) {sched sched1 : List Nat} {sched2 sched3 : Nat → List Nat}
    (hs : sched.Perm (List.range facesA.rows.length)) (hs1 : sched1.Perm (List.range nThreads))
    (hs2 : ∀ n, (sched2 n).Perm (List.range n)) (hs3 : ∀ n, (sched3 n).Perm (List.range n)) :
    ∃ h' areas, t.intersectFacesH Fl.env h verticesA ref fillA nThreads sched sched1 sched2 sched3 =
        .ok (h', List.range faces.rows.length, List.range faces.rows.length, areas) ∧
      List.Forall₂ (fun x c => ∃ a, x = fin a ∧ |a - (c.xmax - c.xmin) * (c.ymax - c.ymin)| ≤ rectAcc M c c) areas cs := by
  have hM0 : 0 < M := lt_of_lt_of_le (by positivity) hM
  have ex : ∀ {vertices : List (Pt Fl)} {fill : Int} {faces : IntArr}, RectsOf M vertices fill faces cs →
      ∀ r ∈ faces.rows, ∃ c, IsRect (facePts vertices fill r) c ∧ GoodRect M c := by
    intro vertices fill faces hr r hrm
    obtain ⟨k, hk, rfl⟩ := List.mem_iff_getElem.1 hrm
    exact ⟨_, (List.forall₂_iff_get.1 hr).2 k hk (by rw [← hr.length_eq]; exact hk)⟩
  have at' : ∀ {vertices : List (Pt Fl)} {fill : Int} {faces : IntArr}, RectsOf M vertices fill faces cs →
      ∀ (k : Nat) r c, faces.rows[k]? = some r → cs[k]? = some c → IsRect (facePts vertices fill r) c ∧ GoodRect M c := by
    intro vertices fill faces hr k r c h1 h2
    obtain ⟨k1, rfl⟩ := List.getElem?_eq_some_iff.1 h1
    obtain ⟨k2, rfl⟩ := List.getElem?_eq_some_iff.1 h2
    exact (List.forall₂_iff_get.1 hr).2 k k1 k2
  obtain ⟨h', ii, jj, areas, h1, h2, h3, h4, h5, h6, h7⟩ :=
    C92_intersect_faces_accuracy hm ht hM hM' (ex hrect) hvA hcolA (ex hrectA) href hn hs hs1 hs2 hs3
  have l1 := hrect.length_eq
  have l2 := hrectA.length_eq
  have hself : ∀ i < cs.length, ∃ a c, cs[i]? = some c ∧ |a - (c.xmax - c.xmin) * (c.ymax - c.ymin)| ≤ rectAcc M c c ∧
      ∀ x, (i, i, x) ∈ ii.zip (jj.zip areas) ↔ x = fin a := by
    intro i hi
    have e1 := List.getElem?_eq_getElem (show i < facesA.rows.length by omega)
    have e2 := List.getElem?_eq_getElem (show i < faces.rows.length by omega)
    have e3 := List.getElem?_eq_getElem hi
    have g1 := at' hrectA i _ _ e1 e3
    have g2 := at' hrect i _ _ e2 e3
    obtain ⟨a, _, a2, _, a4⟩ := h7 i i _ _ _ _ e1 e2 g1.1 g1.2 g2.1 g2.2
    obtain ⟨s1, s2⟩ := hsize _ (List.getElem_mem hi)
    have p38 : (0 : ℚ) < M / 2 ^ 38 := by positivity
    obtain ⟨c1, c2⟩ := common_self (c := cs[i]) ⟨by linarith, by linarith⟩
    rw [c1, c2] at a2
    refine ⟨a, _, e3, a2, fun x => ?_⟩
    rw [a4]
    refine and_iff_left_iff_imp.2 fun _ => ?_
    unfold rectAcc at a2
    rw [c1, c2] at a2
    have e40 : M / 2 ^ 38 = 4 * (M / 2 ^ 40) := by ring
    have p40 : (0 : ℚ) < M / 2 ^ 40 := by positivity
    rw [e40] at s1 s2
    generalize M / 2 ^ 40 = e at a2 s1 s2 p40
    have hw : 4 * e ≤ cs[i].xmax - cs[i].xmin := by linarith
    have hh : 4 * e ≤ cs[i].ymax - cs[i].ymin := by linarith
    generalize cs[i].xmax - cs[i].xmin = w at a2 hw
    generalize cs[i].ymax - cs[i].ymin = v at a2 hh
    have := (abs_le.1 a2).1
    nlinarith [mul_nonneg (sub_nonneg.2 hw) (sub_nonneg.2 hh), mul_pos p40 p40]
  obtain ⟨e1, e2, e3⟩ := diagonal_table (n := faces.rows.length) h2 h3 h4 h5 (by
    intro i j a hmem
    obtain ⟨hi, hj⟩ := h6 i j a hmem
    refine ⟨?_, by omega⟩
    by_contra hne
    have b1 := List.getElem?_eq_getElem hi
    have b2 := List.getElem?_eq_getElem hj
    have b3 := List.getElem?_eq_getElem (show i < cs.length by omega)
    have b4 := List.getElem?_eq_getElem (show j < cs.length by omega)
    have g1 := at' hrectA i _ _ b1 b3
    have g2 := at' hrect j _ _ b2 b4
    obtain ⟨a', _, _, a3, a4⟩ := h7 i j _ _ _ _ b1 b2 g1.1 g1.2 g2.1 g2.2
    have hz : commonX cs[i] cs[j] = 0 ∨ commonY cs[i] cs[j] = 0 := by
      rcases lt_or_gt_of_ne hne with hlt | hlt
      · exact List.pairwise_iff_getElem.1 hapart i j _ _ hlt
      · have := List.pairwise_iff_getElem.1 hapart j i (by omega) (by omega) hlt
        unfold commonX commonY at this ⊢
        rw [min_comm cs[i].xmax, max_comm cs[i].xmin, min_comm cs[i].ymax, max_comm cs[i].ymin]
        exact this
    have := ((a4 a).1 hmem).2
    rw [a3 hz] at this
    exact lt_irrefl _ this) (fun i hi => by
      obtain ⟨a, _, _, _, ha⟩ := hself i (by omega)
      exact ⟨_, (ha _).2 rfl⟩)
  subst e1 e2
  refine ⟨h', areas, h1, List.forall₂_iff_get.2 ⟨by omega, fun k hk hk' => ?_⟩⟩
  have hmem : (k, k, areas[k]) ∈ (List.range faces.rows.length).zip ((List.range faces.rows.length).zip areas) :=
    List.mem_iff_getElem.2 ⟨k, by simp; omega, by simp⟩
  obtain ⟨a, c, hc, ha, hx⟩ := hself k hk'
  obtain ⟨_, rfl⟩ := List.getElem?_eq_some_iff.1 hc
  exact ⟨a, (hx _).1 hmem, ha⟩

/-- The mesh of two decimal cells with itself (the run is `Ex.dec_run_faces`). -/
example : ∃ t h' areas, Makes Fl.env Ex.decVerts Ex.decFaces (-1) 4 2 t ∧
    t.intersectFacesH Fl.env [Ex.decFaces] Ex.decVerts 0 (-1) 1 [0, 1] [0] List.range List.range =
      .ok (h', [0, 1], [0, 1], areas) ∧
    List.Forall₂ (fun x c => ∃ a, x = fin a ∧ |a - (c.xmax - c.xmin) * (c.ymax - c.ymin)| ≤ rectAcc 1 c c) areas
      [Ex.decCell, Ex.decCell2] := by
  obtain ⟨t, ht, _⟩ := Ex.dec_run
  have hr : RectsOf 1 Ex.decVerts (-1) Ex.decFaces [Ex.decCell, Ex.decCell2] :=
    .cons ⟨Ex.decCell_rect, Ex.decCell_good⟩ (.cons ⟨Ex.decCell2_rect, Ex.decCell2_good⟩ .nil)
  obtain ⟨h', areas, h1, h2⟩ := C100_itself_rectangles (M := 1) (h := [Ex.decFaces]) (ref := 0) (nThreads := 1) (sched := [0, 1])
    (sched1 := [0]) (sched2 := List.range) (sched3 := List.range) Ex.dec_good ht (by norm_num) (by norm_num) hr Ex.dec_good.valid
    (by decide) hr (by decide +kernel) (by decide +kernel) rfl (by decide) (by decide) (by decide)
    (fun n => List.Perm.refl _) (fun n => List.Perm.refl _)
  exact ⟨t, h', areas, ht, h1, h2⟩

end Celltree.Fl
