import Verif.Spec.Affine
import Verif.Props.Areas
import Verif.Props.OrderOnly
import Verif.Props.Conserve

/-!
# Areas in other coordinates: C96
-/

set_option linter.unusedSectionVars false

namespace Celltree

open MeasureTheory

section
variable {K : Type} [Field K] [LinearOrder K] [IsStrictOrderedRing K] {A : Affine K}

theorem Affine.orient (A : Affine K) (a b c : Pt K) : Celltree.orient (A.pt a) (A.pt b) (A.pt c) = A.det * Celltree.orient a b c := by
  unfold Celltree.orient Affine.pt Affine.det; ring

theorem pairs_map {α β : Type} (f : α → β) : ∀ l : List α, pairs (l.map f) = (pairs l).map (Prod.map f f)
  | [] => rfl
  | [_] => rfl
  | a :: b :: l => by
    have := pairs_map f (b :: l)
    simp only [List.map_cons] at this
    simp only [List.map_cons, pairs, this, Prod.map]

theorem sides_map {α β : Type} (f : α → β) (l : List α) : sides (l.map f) = (sides l).map (Prod.map f f) := by
  cases l with
  | nil => rfl
  | cons a l =>
    simp only [sides, List.map_cons]
    rw [← pairs_map]
    simp

theorem Affine.inPoly (A : Affine K) (l : List (Pt K)) (p : Pt K) :
    InPoly (l.map A.pt) (A.pt p) ↔ ∀ s ∈ sides l, 0 ≤ A.det * Celltree.orient s.1 s.2 p := by
  unfold InPoly
  rw [sides_map]
  simp only [List.forall_mem_map, Prod.map, Affine.orient]

/-- A point is in a face if and only if it is in the new coordinates. -/
theorem Affine.inFace (hA : A.det ≠ 0) (l : List (Pt K)) (p : Pt K) : InFace (l.map A.pt) (A.pt p) ↔ InFace l p := by
  have e1 := A.inPoly l p
  have e2 := A.inPoly l.reverse p
  rw [List.map_reverse] at e2
  unfold InFace
  rw [e1, e2, inPoly_reverse]
  have e3 : (∀ s ∈ sides l.reverse, 0 ≤ A.det * Celltree.orient s.1 s.2 p) ↔ ∀ s ∈ sides l, A.det * Celltree.orient s.1 s.2 p ≤ 0 := by
    constructor
    · intro h s hs
      have := h (s.2, s.1) ((sides_reverse l).mem_iff.2 (List.mem_map.2 ⟨s, hs, rfl⟩))
      rw [orient_swap'] at this
      linarith
    · intro h s hs
      obtain ⟨s', hs', rfl⟩ := List.mem_map.1 ((sides_reverse l).mem_iff.1 hs)
      have := h s' hs'
      simp only [Prod.fst_swap, Prod.snd_swap]
      rw [orient_swap']
      linarith
  rw [e3]
  unfold InPoly
  rcases lt_or_gt_of_ne hA with h | h
  · rw [or_comm]
    refine or_congr (forall₂_congr fun s _ => ?_) (forall₂_congr fun s _ => ?_)
    · constructor <;> intro g <;> nlinarith
    · constructor <;> intro g <;> nlinarith
  · refine or_congr (forall₂_congr fun s _ => ?_) (forall₂_congr fun s _ => ?_)
    · exact mul_nonneg_iff_of_pos_left h
    · constructor <;> intro g <;> nlinarith


theorem Affine.convexPoly (hA : 0 < A.det) {l : List (Pt K)} (h : ConvexPoly l) : ConvexPoly (l.map A.pt) := by
  constructor
  · intro a b c habc
    obtain ⟨l', h1, h2⟩ := List.sublist_map_iff.1 habc
    match l', h2 with
    | [a', b', c'], h2 =>
      simp only [List.map_cons, List.map_nil, List.cons.injEq, and_true] at h2
      obtain ⟨rfl, rfl, rfl⟩ := h2
      rw [Affine.orient]
      exact mul_nonneg hA.le (h.turn _ _ _ h1)
  · obtain ⟨a, b, c, h1, h2⟩ := h.nondeg
    exact ⟨_, _, _, h1.map A.pt, by rw [Affine.orient]; exact mul_pos hA h2⟩

theorem Affine.convexFace (hA : 0 < A.det) {l : List (Pt K)} (h : ConvexFace l) : ConvexFace (l.map A.pt) := by
  rcases h with h | ⟨h, l', a, b, c, e, ho⟩
  · exact Or.inl (A.convexPoly hA h)
  · refine Or.inr ⟨by rw [← List.map_reverse]; exact A.convexPoly hA h, l'.map A.pt, A.pt a, A.pt b, A.pt c, by rw [e]; simp, ?_⟩
    rw [Affine.orient]
    exact mul_ne_zero hA.ne' ho

/-- A strictly convex face keeps this property in all coordinates. -/
theorem Affine.strictlyConvex (hA : A.det ≠ 0) {l : List (Pt K)} (h : StrictlyConvex l ∨ StrictlyConvex l.reverse) :
    StrictlyConvex (l.map A.pt) ∨ StrictlyConvex (l.map A.pt).reverse := by
  have key : ∀ {l : List (Pt K)}, StrictlyConvex l → StrictlyConvex (l.map A.pt) ∨ StrictlyConvex (l.map A.pt).reverse := by
    intro l h
    have sub : ∀ {a b c : Pt K}, List.Sublist [a, b, c] (l.map A.pt) → ∃ a' b' c', List.Sublist [a', b', c'] l ∧ a = A.pt a' ∧
        b = A.pt b' ∧ c = A.pt c' := by
      intro a b c habc
      obtain ⟨l', h1, h2⟩ := List.sublist_map_iff.1 habc
      match l', h2 with
      | [a', b', c'], h2 =>
        simp only [List.map_cons, List.map_nil, List.cons.injEq, and_true] at h2
        exact ⟨a', b', c', h1, h2.1, h2.2.1, h2.2.2⟩
    rcases lt_or_gt_of_ne hA with hA | hA
    · refine Or.inr ⟨by simpa using h.length, fun a b c habc => ?_⟩
      have habc := habc.reverse
      simp only [List.reverse_reverse, List.reverse_cons, List.reverse_nil, List.nil_append, List.cons_append] at habc
      obtain ⟨c', b', a', h1, rfl, rfl, rfl⟩ := sub habc
      rw [Affine.orient]
      have := h.turn _ _ _ h1
      have e : Celltree.orient a' b' c' = - Celltree.orient c' b' a' := by unfold Celltree.orient; ring
      rw [e]
      nlinarith
    · refine Or.inl ⟨by simpa using h.length, fun a b c habc => ?_⟩
      obtain ⟨a', b', c', h1, rfl, rfl, rfl⟩ := sub habc
      rw [Affine.orient]
      exact mul_pos hA (h.turn _ _ _ h1)
  rcases h with h | h
  · exact key h
  · have := key h
    rw [List.map_reverse, List.reverse_reverse] at this
    exact this.symm

end

/-- The measure of a set in the new coordinates. -/
theorem Affine.areaOf {A : Affine ℝ} (hA : A.det ≠ 0) {S S' : Set (ℝ × ℝ)}
    (h : ∀ p : ℝ × ℝ, p ∈ S ↔ ((A.pt ⟨p.1, p.2⟩).x, (A.pt ⟨p.1, p.2⟩).y) ∈ S') : Celltree.areaOf S' = |A.det| * Celltree.areaOf S := by
  have e : S = linTo ⟨A.xx, A.yx⟩ ⟨A.xy, A.yy⟩ ⁻¹' ((fun p => (A.x0, A.y0) + p) ⁻¹' S') := by
    ext p
    rw [h p]
    simp only [Set.mem_preimage, linTo_apply, Affine.pt, Prod.mk_add_mk]
    rw [show A.xx * p.1 + A.xy * p.2 + A.x0 = A.x0 + (A.xx * p.1 + A.xy * p.2) by ring,
      show A.yx * p.1 + A.yy * p.2 + A.y0 = A.y0 + (A.yx * p.1 + A.yy * p.2) by ring]
  have hdet : LinearMap.det (linTo ⟨A.xx, A.yx⟩ ⟨A.xy, A.yy⟩) = A.det := by rw [det_linTo]; rfl
  unfold Celltree.areaOf
  rw [e, Measure.addHaar_preimage_linearMap _ (by rw [hdet]; exact hA), measure_preimage_add, hdet, ENNReal.toReal_mul,
    ENNReal.toReal_ofReal (abs_nonneg _), abs_inv, mul_inv_cancel_left₀ (abs_ne_zero.2 hA)]

theorem Affine.areaOf_inter {A : Affine ℝ} (hA : A.det ≠ 0) (l m : List (Pt ℝ)) :
    Celltree.areaOf (faceRegion (l.map A.pt) ∩ faceRegion (m.map A.pt)) =
      |A.det| * Celltree.areaOf (faceRegion l ∩ faceRegion m) :=
  A.areaOf hA fun _ => and_congr (A.inFace hA l _).symm (A.inFace hA m _).symm

section
variable {env env' : Env ℝ} {vertices verticesA : List (Pt ℝ)} {faces facesA : IntArr} {fill fillA nb cpl nb' cpl' : Int}
  {t t' : CellTree ℝ} {A : Affine ℝ} {h h0 : Heap} {ref ref0 : Nat} {nThreads nThreads' : Nat}
  {sched sched1 sched' sched1' : List Nat} {sched2 sched3 sched2' sched3' : Nat → List Nat}

/-- Two lists of pairs with numbers, without double pairs, with the same elements up to a change of the numbers. -/
theorem perm_of_scaled {ii jj ii' jj' : List Nat} {areas areas' : List ℝ} {k : ℝ} (l1 : ii.length = jj.length)
    (l2 : jj.length = areas.length) (hnd : (ii.zip jj).Nodup) (hp : ii.Pairwise (· ≤ ·)) (l1' : ii'.length = jj'.length)
    (l2' : jj'.length = areas'.length) (hnd' : (ii'.zip jj').Nodup) (hp' : ii'.Pairwise (· ≤ ·))
    (hk : k ≠ 0) (hiff : ∀ i j a, (i, j, k * a) ∈ ii'.zip (jj'.zip areas') ↔ (i, j, a) ∈ ii.zip (jj.zip areas)) :
    ii' = ii ∧ (ii'.zip (jj'.zip areas')).Perm ((ii.zip (jj.zip areas)).map fun x => (x.1, x.2.1, k * x.2.2)) := by
  have nd : ∀ {ii jj : List Nat} {areas : List ℝ}, ii.length = jj.length → jj.length = areas.length → (ii.zip jj).Nodup →
      (ii.zip (jj.zip areas)).Nodup := by
    intro ii jj areas g1 g2 g3
    apply List.Nodup.of_map (fun x : Nat × Nat × ℝ => (x.1, x.2.1))
    have : (ii.zip (jj.zip areas)).map (fun x : Nat × Nat × ℝ => (x.1, x.2.1)) = ii.zip jj := by
      apply List.ext_getElem
      · simp; omega
      · intro n h1 h2; simp
    rwa [this]
  have hp0 : (ii'.zip (jj'.zip areas')).Perm ((ii.zip (jj.zip areas)).map fun x => (x.1, x.2.1, k * x.2.2)) := by
    rw [List.perm_ext_iff_of_nodup (nd l1' l2' hnd')]
    · rintro ⟨i, j, a⟩
      have := hiff i j (k⁻¹ * a)
      rw [mul_inv_cancel_left₀ hk] at this
      rw [this, List.mem_map]
      constructor
      · intro g
        exact ⟨_, g, by simp [mul_inv_cancel_left₀ hk]⟩
      · rintro ⟨⟨i', j', a'⟩, g, e⟩
        simp only [Prod.mk.injEq] at e
        obtain ⟨rfl, rfl, rfl⟩ := e
        rwa [inv_mul_cancel_left₀ hk]
    · refine (nd l1 l2 hnd).map ?_
      rintro ⟨i, j, a⟩ ⟨i', j', a'⟩ e
      simp only [Prod.mk.injEq, mul_right_inj' hk] at e
      simp [e]
  refine ⟨?_, hp0⟩
  have hp1 : ii'.Perm ii := by
    have := hp0.map Prod.fst
    rw [List.map_map, List.map_fst_zip (by simp; omega)] at this
    have e : (ii.zip (jj.zip areas)).map (Prod.fst ∘ fun x : Nat × Nat × ℝ => (x.1, x.2.1, k * x.2.2)) = ii := by
      change (ii.zip (jj.zip areas)).map Prod.fst = ii
      rw [List.map_fst_zip (by simp; omega)]
    rwa [e] at this
  exact hp1.eq_of_pairwise' hp' hp

/-- **C96** (real numbers): if both meshes are given in other coordinates, `intersect_faces` reports the same pairs, and all
areas change by the same factor. The faces must be convex, and stored correctly, in both coordinates. -/
theorem C96_faces_affine_partial (hA : A.det ≠ 0) (hm : GoodMesh env vertices faces fill) (ht : Makes env vertices faces fill nb cpl t)
    (hconv : ∀ r ∈ faces.rows, ConvexFace (facePts vertices fill r) ∧ SmallPts env (facePts vertices fill r))
    (ht' : Makes env' (vertices.map A.pt) faces fill nb' cpl' t')
    (hconv' : ∀ r ∈ faces.rows, ConvexFace ((facePts vertices fill r).map A.pt) ∧ SmallPts env' ((facePts vertices fill r).map A.pt))
    (hvA : ValidFaces verticesA.length fillA facesA) (hcolA : facesA.ncol ≤ maxNVertex)
    (hconvA : ∀ r ∈ facesA.rows, ConvexFace (facePts verticesA fillA r) ∧ SmallPts env (facePts verticesA fillA r))
    (hconvA' : ∀ r ∈ facesA.rows, ConvexFace ((facePts verticesA fillA r).map A.pt) ∧
      SmallPts env' ((facePts verticesA fillA r).map A.pt))
    (href : h[ref]? = some facesA) (href0 : h0[ref0]? = some facesA) (hn : 0 < nThreads) (hn' : 0 < nThreads')
    (hs : sched.Perm (List.range facesA.rows.length)) (hs1 : sched1.Perm (List.range nThreads))
    (hs2 : ∀ n, (sched2 n).Perm (List.range n)) (hs3 : ∀ n, (sched3 n).Perm (List.range n))
    (hs' : sched'.Perm (List.range facesA.rows.length)) (hs1' : sched1'.Perm (List.range nThreads'))
    (hs2' : ∀ n, (sched2' n).Perm (List.range n)) (hs3' : ∀ n, (sched3' n).Perm (List.range n)) :
    ∃ g ii jj areas g' ii' jj' areas',
      t.intersectFacesH env h verticesA ref fillA nThreads sched sched1 sched2 sched3 = .ok (g, ii, jj, areas) ∧
      t'.intersectFacesH env' h0 (verticesA.map A.pt) ref0 fillA nThreads' sched' sched1' sched2' sched3' = .ok (g', ii', jj', areas') ∧
      ii' = ii ∧ (ii'.zip (jj'.zip areas')).Perm ((ii.zip (jj.zip areas)).map fun x => (x.1, x.2.1, |A.det| * x.2.2)) := by
  obtain ⟨g, ii, jj, areas, h1, h2, h3, h4, h5, h6⟩ :=
    C36_intersect_faces_measure hm ht hconv hvA hcolA hconvA href hn hs hs1 hs2 hs3
  have hm' : GoodMesh env' (vertices.map A.pt) faces fill :=
    ⟨by rw [List.length_map]; exact hm.valid, fun _ _ _ _ => ⟨trivial, trivial⟩, trivial, trivial⟩
  obtain ⟨g', ii', jj', areas', h1', h2', h3', h4', h5', h6'⟩ :=
    C36_intersect_faces_measure (env := env') (verticesA := verticesA.map A.pt) hm' ht' (by simpa only [facePts_map] using hconv')
      (by rw [List.length_map]; exact hvA) hcolA (by simpa only [facePts_map] using hconvA') href0 hn' hs' hs1' hs2' hs3'
  have hk : 0 < |A.det| := abs_pos.2 hA
  have := perm_of_scaled h2 h3 h4 h5 h2' h3' h4' h5' hk.ne' (by
    intro i j a
    rw [h6, h6']
    simp only [facePts_map, A.areaOf_inter hA]
    refine exists_congr fun r => exists_congr fun s => and_congr_right fun _ => and_congr_right fun _ => and_congr ?_ ?_
    · exact mul_right_inj' hk.ne'
    · exact mul_pos_iff_of_pos_left hk)
  exact ⟨g, ii, jj, areas, g', ii', jj', areas', h1, h1', this⟩

/-- **C96** (real numbers): translations, rotations, scaling and other changes of coordinates that keep the orientation. -/
theorem C96_faces_oriented (hA : 0 < A.det) (hm : GoodMesh env vertices faces fill) (ht : Makes env vertices faces fill nb cpl t)
    (hconv : ∀ r ∈ faces.rows, ConvexFace (facePts vertices fill r) ∧ SmallPts env (facePts vertices fill r))
    (ht' : Makes env' (vertices.map A.pt) faces fill nb' cpl' t')
    (hsm' : ∀ r ∈ faces.rows, SmallPts env' ((facePts vertices fill r).map A.pt))
    (hvA : ValidFaces verticesA.length fillA facesA) (hcolA : facesA.ncol ≤ maxNVertex)
    (hconvA : ∀ r ∈ facesA.rows, ConvexFace (facePts verticesA fillA r) ∧ SmallPts env (facePts verticesA fillA r))
    (hsmA' : ∀ r ∈ facesA.rows, SmallPts env' ((facePts verticesA fillA r).map A.pt))
    (href : h[ref]? = some facesA) (href0 : h0[ref0]? = some facesA) (hn : 0 < nThreads) (hn' : 0 < nThreads')
    (hs : sched.Perm (List.range facesA.rows.length)) (hs1 : sched1.Perm (List.range nThreads))
    (hs2 : ∀ n, (sched2 n).Perm (List.range n)) (hs3 : ∀ n, (sched3 n).Perm (List.range n))
    (hs' : sched'.Perm (List.range facesA.rows.length)) (hs1' : sched1'.Perm (List.range nThreads'))
    (hs2' : ∀ n, (sched2' n).Perm (List.range n)) (hs3' : ∀ n, (sched3' n).Perm (List.range n)) :
    ∃ g ii jj areas g' ii' jj' areas',
      t.intersectFacesH env h verticesA ref fillA nThreads sched sched1 sched2 sched3 = .ok (g, ii, jj, areas) ∧
      t'.intersectFacesH env' h0 (verticesA.map A.pt) ref0 fillA nThreads' sched' sched1' sched2' sched3' = .ok (g', ii', jj', areas') ∧
      ii' = ii ∧ (ii'.zip (jj'.zip areas')).Perm ((ii.zip (jj.zip areas)).map fun x => (x.1, x.2.1, A.det * x.2.2)) := by
  have := C96_faces_affine_partial hA.ne' hm ht hconv ht' (fun r hr => ⟨A.convexFace hA (hconv r hr).1, hsm' r hr⟩) hvA hcolA hconvA
    (fun r hr => ⟨A.convexFace hA (hconvA r hr).1, hsmA' r hr⟩) href href0 hn hn' hs hs1 hs2 hs3 hs' hs1' hs2' hs3'
  rwa [abs_of_pos hA] at this

/-- **C96** (real numbers): all changes of coordinates, mirroring included, for meshes without straight corners. -/
theorem C96_faces_strictly_convex (hA : A.det ≠ 0) (hm : GoodMesh env vertices faces fill) (ht : Makes env vertices faces fill nb cpl t)
    (hconv : ∀ r ∈ faces.rows, StrictlyConvex (facePts vertices fill r) ∨ StrictlyConvex (facePts vertices fill r).reverse)
    (hsm : ∀ r ∈ faces.rows, SmallPts env (facePts vertices fill r))
    (ht' : Makes env' (vertices.map A.pt) faces fill nb' cpl' t')
    (hsm' : ∀ r ∈ faces.rows, SmallPts env' ((facePts vertices fill r).map A.pt))
    (hvA : ValidFaces verticesA.length fillA facesA) (hcolA : facesA.ncol ≤ maxNVertex)
    (hconvA : ∀ r ∈ facesA.rows, StrictlyConvex (facePts verticesA fillA r) ∨ StrictlyConvex (facePts verticesA fillA r).reverse)
    (hsmA : ∀ r ∈ facesA.rows, SmallPts env (facePts verticesA fillA r))
    (hsmA' : ∀ r ∈ facesA.rows, SmallPts env' ((facePts verticesA fillA r).map A.pt))
    (href : h[ref]? = some facesA) (href0 : h0[ref0]? = some facesA) (hn : 0 < nThreads) (hn' : 0 < nThreads')
    (hs : sched.Perm (List.range facesA.rows.length)) (hs1 : sched1.Perm (List.range nThreads))
    (hs2 : ∀ n, (sched2 n).Perm (List.range n)) (hs3 : ∀ n, (sched3 n).Perm (List.range n))
    (hs' : sched'.Perm (List.range facesA.rows.length)) (hs1' : sched1'.Perm (List.range nThreads'))
    (hs2' : ∀ n, (sched2' n).Perm (List.range n)) (hs3' : ∀ n, (sched3' n).Perm (List.range n)) :
    ∃ g ii jj areas g' ii' jj' areas',
      t.intersectFacesH env h verticesA ref fillA nThreads sched sched1 sched2 sched3 = .ok (g, ii, jj, areas) ∧
      t'.intersectFacesH env' h0 (verticesA.map A.pt) ref0 fillA nThreads' sched' sched1' sched2' sched3' = .ok (g', ii', jj', areas') ∧
      ii' = ii ∧ (ii'.zip (jj'.zip areas')).Perm ((ii.zip (jj.zip areas)).map fun x => (x.1, x.2.1, |A.det| * x.2.2)) :=
  C96_faces_affine_partial hA hm ht (fun r hr => ⟨StrictlyConvex.convexFace (hconv r hr), hsm r hr⟩) ht'
    (fun r hr => ⟨StrictlyConvex.convexFace (A.strictlyConvex hA (hconv r hr)), hsm' r hr⟩) hvA hcolA
    (fun r hr => ⟨StrictlyConvex.convexFace (hconvA r hr), hsmA r hr⟩)
    (fun r hr => ⟨StrictlyConvex.convexFace (A.strictlyConvex hA (hconvA r hr)), hsmA' r hr⟩) href href0 hn hn' hs hs1 hs2 hs3 hs' hs1'
    hs2' hs3'

/-- The box in coordinates that are stretched and translated. -/
def stretchBox (kx ky x0 y0 : ℝ) (q : Box ℝ) : Box ℝ := ⟨kx * q.xmin + x0, kx * q.xmax + x0, ky * q.ymin + y0, ky * q.ymax + y0⟩

/-- **C96** (real numbers): if the mesh and the boxes are stretched and translated, `intersect_boxes` reports the same pairs, and
all areas change by the same factor. -/
theorem C96_boxes_stretched {kx ky x0 y0 : ℝ} (hkx : 0 < kx) (hky : 0 < ky) {boxes : List (Box ℝ)}
    (hm : GoodMesh env vertices faces fill) (ht : Makes env vertices faces fill nb cpl t)
    (hconv : ∀ r ∈ faces.rows, ConvexFace (facePts vertices fill r))
    (ht' : Makes env' (vertices.map fun p => ⟨kx * p.x + x0, ky * p.y + y0⟩) faces fill nb' cpl' t')
    (hbox : ∀ q ∈ boxes, q.xmin < q.xmax ∧ q.ymin < q.ymax)
    (hn : 0 < nThreads) (hn' : 0 < nThreads') (hs : sched.Perm (List.range nThreads)) (hs2 : ∀ n, (sched2 n).Perm (List.range n))
    (hs' : sched'.Perm (List.range nThreads')) (hs2' : ∀ n, (sched2' n).Perm (List.range n)) :
    ∃ ii jj areas ii' jj' areas', t.intersectBoxes boxes nThreads sched sched2 = .ok (ii, jj, areas) ∧
      t'.intersectBoxes (boxes.map (stretchBox kx ky x0 y0)) nThreads' sched' sched2' = .ok (ii', jj', areas') ∧
      ii' = ii ∧ (ii'.zip (jj'.zip areas')).Perm ((ii.zip (jj.zip areas)).map fun x => (x.1, x.2.1, kx * ky * x.2.2)) := by
  let A : Affine ℝ := ⟨kx, 0, 0, ky, x0, y0⟩
  have eA : (fun p : Pt ℝ => (⟨kx * p.x + x0, ky * p.y + y0⟩ : Pt ℝ)) = A.pt := by
    funext p; simp [A, Affine.pt]
  have hdet : A.det = kx * ky := by simp [A, Affine.det]
  have hpos : 0 < A.det := by rw [hdet]; positivity
  rw [eA] at ht'
  obtain ⟨ii, jj, areas, h1, h2, h3, h4, h5, h6⟩ := C36_intersect_boxes_measure hm ht hconv hbox hn hs hs2
  have hm' : GoodMesh env' (vertices.map A.pt) faces fill :=
    ⟨by rw [List.length_map]; exact hm.valid, fun _ _ _ _ => ⟨trivial, trivial⟩, trivial, trivial⟩
  obtain ⟨ii', jj', areas', h1', h2', h3', h4', h5', h6'⟩ :=
    C36_intersect_boxes_measure (boxes := boxes.map (stretchBox kx ky x0 y0)) hm' ht'
      (fun r hr => by rw [facePts_map]; exact A.convexFace hpos (hconv r hr))
      (by
        intro q hq
        obtain ⟨q, hq0, rfl⟩ := List.mem_map.1 hq
        have := hbox q hq0
        simp only [stretchBox]
        constructor <;> nlinarith) hn' hs' hs2'
  have area : ∀ (q : Box ℝ) (l : List (Pt ℝ)), areaOf (boxRegion (stretchBox kx ky x0 y0 q) ∩ faceRegion (l.map A.pt)) =
      kx * ky * areaOf (boxRegion q ∩ faceRegion l) := by
    intro q l
    rw [← hdet, ← abs_of_pos hpos]
    refine A.areaOf hpos.ne' fun p => and_congr ?_ (A.inFace hpos.ne' l _).symm
    simp only [boxRegion, Set.mem_ofPred_eq, InBox, stretchBox, ← eA, add_le_add_iff_right, mul_le_mul_iff_right₀ hkx, mul_le_mul_iff_right₀ hky]
  have hk : 0 < kx * ky := by positivity
  have := perm_of_scaled h2 h3 h4 h5 h2' h3' h4' h5' hk.ne' (by
    intro i j a
    rw [h6, h6']
    constructor
    · rintro ⟨q', s, e1, e2, e3, e4⟩
      rw [List.getElem?_map] at e1
      obtain ⟨q, e0, rfl⟩ := Option.map_eq_some_iff.1 e1
      rw [facePts_map, area] at e3
      exact ⟨q, s, e0, e2, mul_left_cancel₀ hk.ne' e3, (mul_pos_iff_of_pos_left hk).1 e4⟩
    · rintro ⟨q, s, e1, e2, e3, e4⟩
      exact ⟨_, s, by rw [List.getElem?_map, e1]; rfl, e2, by rw [facePts_map, area, e3], mul_pos hk e4⟩)
  exact ⟨ii, jj, areas, ii', jj', areas', h1, h1', this⟩

end
/-! ## Mirroring -/

namespace Ex

/-- A triangle given counter-clockwise, with an extra corner on its last side. -/
def ccwTriangle : List (Pt ℚ) := [⟨0, 0⟩, ⟨0, 2⟩, ⟨-2, 0⟩, ⟨-1, 0⟩]

/-- A square around it. -/
def ccwSquare : List (Pt ℚ) := [⟨0, 0⟩, ⟨0, 2⟩, ⟨-2, 2⟩, ⟨-2, 0⟩]

/-- Mirroring in the y-axis. -/
def mirror : Affine ℚ := ⟨-1, 0, 0, 1, 0, 0⟩

end Ex

/-- **C96** does not hold for mirrored meshes with straight corners: a triangle with an extra corner on a side has an area of 2 in
common with a square around it, but if both are mirrored the pair is not reported (C21: the mirrored triangle is stored in the
wrong order). -/
theorem C96_mirror_violated : ConvexPoly Ex.ccwTriangle ∧ ConvexPoly Ex.ccwSquare ∧ Ex.mirror.det = -1 ∧
    (∃ t, Makes Ex.qEnv Ex.ccwTriangle ⟨4, [[0, 1, 2, 3]]⟩ (-1) 4 2 t ∧
      (t.intersectFacesH Ex.qEnv [⟨4, [[0, 1, 2, 3]]⟩] Ex.ccwSquare 0 (-1) 1 [0] [0] List.range List.range).map (·.2) =
        .ok ([0], [0], [2])) ∧
    ∃ t, Makes Ex.qEnv (Ex.ccwTriangle.map Ex.mirror.pt) ⟨4, [[0, 1, 2, 3]]⟩ (-1) 4 2 t ∧
      (t.intersectFacesH Ex.qEnv [⟨4, [[0, 1, 2, 3]]⟩] (Ex.ccwSquare.map Ex.mirror.pt) 0 (-1) 1 [0] [0] List.range List.range).map (·.2) =
        .ok ([], [], []) := by
  refine ⟨by decide +kernel, by decide +kernel, by decide +kernel, ?_, ?_⟩
  · obtain ⟨t, h1, h2⟩ := bind_eq_ok.1 (show (CellTree.init Ex.qEnv Ex.ccwTriangle ⟨4, [[0, 1, 2, 3]]⟩ (-1) 4 2 [0] >>= fun t =>
      (t.intersectFacesH Ex.qEnv [⟨4, [[0, 1, 2, 3]]⟩] Ex.ccwSquare 0 (-1) 1 [0] [0] List.range List.range).map (·.2)) =
        .ok ([0], [0], [2]) by decide +kernel)
    exact ⟨t, ⟨[0], by decide, h1⟩, h2⟩
  · obtain ⟨t, h1, h2⟩ := bind_eq_ok.1 (show (CellTree.init Ex.qEnv (Ex.ccwTriangle.map Ex.mirror.pt) ⟨4, [[0, 1, 2, 3]]⟩ (-1) 4 2 [0]
      >>= fun t => (t.intersectFacesH Ex.qEnv [⟨4, [[0, 1, 2, 3]]⟩] (Ex.ccwSquare.map Ex.mirror.pt) 0 (-1) 1 [0] [0] List.range
        List.range).map (·.2)) = .ok ([], [], []) by decide +kernel)
    exact ⟨t, ⟨[0], by decide, h1⟩, h2⟩

/-! ## The hypotheses can be met -/

namespace Ex

theorem real_strict : ∀ r ∈ realFaces.rows, StrictlyConvex (facePts realVerts (-1) r) ∨ StrictlyConvex (facePts realVerts (-1) r).reverse := by
  refine real_pts (P := fun l => StrictlyConvex l ∨ StrictlyConvex l.reverse) (Or.inl ?_) (Or.inr ?_) (Or.inl ?_) <;>
    (simp only [List.reverse_cons, List.reverse_nil, List.nil_append, List.cons_append, strictlyConvex_iff, triples,
      triples.pairsOf, List.map_cons, List.map_nil, List.mem_cons, List.not_mem_nil, forall_eq_or_imp, or_false,
      forall_eq, orient, List.length_cons, List.length_nil]
     norm_num)

/-- Mirroring in the diagonal, with scaling and translation. -/
def diagonal : Affine ℝ := ⟨0, 2, 2, 0, -1, 1⟩

theorem real_small : ∀ r ∈ realFaces.rows, SmallPts realEnv (facePts realVerts (-1) r) ∧
    SmallPts realEnv ((facePts realVerts (-1) r).map diagonal.pt) := by
  have key : ∀ l : List (Pt ℝ), (∀ v ∈ l, |v.x| ≤ 10 ∧ |v.y| ≤ 10) → SmallPts realEnv l := by
    intro l hl
    have h : (2 : ℝ) * 10 ^ 2 ≤ 10 ^ 300 :=
      le_trans (by norm_num : (2 : ℝ) * 10 ^ 2 ≤ 10 ^ 3) (pow_le_pow_right₀ (by norm_num) (by norm_num))
    exact ⟨10, hl, by simp only [realEnv]; exact neg_le_neg h, by simp only [realEnv]; exact h⟩
  refine real_pts (P := fun l => SmallPts realEnv l ∧ SmallPts realEnv (l.map diagonal.pt)) ⟨key _ ?_, key _ ?_⟩ ⟨key _ ?_, key _ ?_⟩
    ⟨key _ ?_, key _ ?_⟩ <;>
    (simp only [List.map_cons, List.map_nil, List.mem_cons, List.not_mem_nil, or_false, forall_eq_or_imp, forall_eq, diagonal, Affine.pt, abs_le]
     norm_num)

theorem diagonal_makes : ∃ t, Makes realEnv (realVerts.map diagonal.pt) realFaces (-1) 4 1 t := by
  have hg : GoodMesh realEnv (realVerts.map diagonal.pt) realFaces (-1) :=
    ⟨by rw [List.length_map]; exact real_valid, fun _ _ _ _ => ⟨trivial, trivial⟩, trivial, trivial⟩
  obtain ⟨t, h⟩ := C12_construction_succeeds (nBuckets := 4) (cellsPerLeaf := 1) hg (sched := [0, 1, 2]) (by decide) (by decide) (by decide)
    (by decide) (by decide)
    (by
      simp only [facePts_map]
      refine real_pts (P := fun l => ∃ u ∈ l.map diagonal.pt, ∃ v ∈ l.map diagonal.pt, u.x < v.x) ?_ ?_ ?_ <;>
        simp [diagonal, Affine.pt])
    (by
      simp only [facePts_map]
      refine real_pts (P := fun l => ∃ u ∈ l.map diagonal.pt, ∃ v ∈ l.map diagonal.pt, u.y < v.y) ?_ ?_ ?_ <;>
        simp [diagonal, Affine.pt])
    (by
      simp only [realFaces, realEnv, List.length_cons, List.length_nil]
      calc ((4 : Int) : ℝ) * ((0 + 1 + 1 + 1 : Nat) : ℝ) < 10 ^ 2 := by norm_num
        _ ≤ 10 ^ 300 := pow_le_pow_right₀ (by norm_num) (by norm_num))
  exact ⟨t, _, by decide, h⟩

end Ex

/-- A mesh with itself: areas are four times as large after scaling by two and mirroring in the diagonal. -/
example : ∃ t t', Makes Ex.realEnv Ex.realVerts Ex.realFaces (-1) 4 1 t ∧
    Makes Ex.realEnv (Ex.realVerts.map Ex.diagonal.pt) Ex.realFaces (-1) 4 1 t' ∧
    ∃ g ii jj areas g' ii' jj' areas',
      t.intersectFacesH Ex.realEnv [Ex.realFaces] Ex.realVerts 0 (-1) 1 [0, 1, 2] [0] List.range List.range = .ok (g, ii, jj, areas) ∧
      t'.intersectFacesH Ex.realEnv [Ex.realFaces] (Ex.realVerts.map Ex.diagonal.pt) 0 (-1) 2 [2, 0, 1] [1, 0] List.range List.range =
        .ok (g', ii', jj', areas') ∧
      ii' = ii ∧ (ii'.zip (jj'.zip areas')).Perm ((ii.zip (jj.zip areas)).map fun x => (x.1, x.2.1, 4 * x.2.2)) := by
  obtain ⟨t, ht⟩ := Ex.real_makes
  obtain ⟨t', ht'⟩ := Ex.diagonal_makes
  refine ⟨t, t', ht, ht', ?_⟩
  have hd : |Ex.diagonal.det| = 4 := by norm_num [Ex.diagonal, Affine.det]
  have hd0 : Ex.diagonal.det ≠ 0 := by norm_num [Ex.diagonal, Affine.det]
  have := C96_faces_strictly_convex hd0 Ex.real_good ht Ex.real_strict (fun r hr => (Ex.real_small r hr).1) ht'
    (fun r hr => (Ex.real_small r hr).2) (verticesA := Ex.realVerts) (facesA := Ex.realFaces) (fillA := -1) Ex.real_valid (by decide)
    Ex.real_strict (fun r hr => (Ex.real_small r hr).1) (fun r hr => (Ex.real_small r hr).2) (h := [Ex.realFaces]) (ref := 0)
    (h0 := [Ex.realFaces]) (ref0 := 0) rfl rfl (nThreads := 1) (nThreads' := 2) (by decide) (by decide) (sched := [0, 1, 2]) (sched1 := [0])
    (sched2 := List.range) (sched3 := List.range) (by decide) (by decide) (fun _ => List.Perm.refl _) (fun _ => List.Perm.refl _)
    (sched' := [2, 0, 1]) (sched1' := [1, 0]) (sched2' := List.range) (sched3' := List.range) (by decide) (by decide)
    (fun _ => List.Perm.refl _) (fun _ => List.Perm.refl _)
  rwa [hd] at this

end Celltree
