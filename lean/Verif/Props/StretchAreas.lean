import Verif.Proofs.StretchClip
import Verif.Props.Areas

/-!
# Intersections of scaled and translated meshes: C117
-/

set_option linter.unusedSectionVars false

namespace Celltree

section
variable {K : Type} [Field K] [LinearOrder K] [IsStrictOrderedRing K] {env : Env K} {kx ky x0 y0 : K}
  {vertices : List (Pt K)} {faces : IntArr} {fill nBuckets cellsPerLeaf : Int} {sched : List Nat} {t t' : CellTree K}

theorem RelM.map_eq {α β : Type} {S : α → β → Prop} {x : M α} {y : M β} {f : α → β} (h : RelM S x y) (k : ∀ a b, S a b → b = f a) :
    y = f <$> x := by
  match x, y, h with
  | .ok _, .ok _, h => exact congrArg _ (k _ _ h)
  | .error _, .error _, h => exact congrArg _ (Eq.symm h)

theorem stretch_tree (hkx : 0 < kx) (hky : 0 < ky) (hin : InRange env vertices)
    (hin' : InRange env (vertices.map (mapPt (stretch kx ky x0 y0))))
    (ht : CellTree.init env vertices faces fill nBuckets cellsPerLeaf sched = .ok t)
    (ht' : CellTree.init env (vertices.map (mapPt (stretch kx ky x0 y0))) faces fill nBuckets cellsPerLeaf sched = .ok t') :
    TreeRel (StretchRel kx ky x0 y0) t t' := by
  obtain ⟨t'', h1, h2⟩ := (stretch_init hkx hky hin hin').ok_left ht
  rw [ht'] at h1
  cases h1
  exact h2.mono fun _ _ _ h => h.1

theorem forall₂_scale {c : K} {l m : List K} (h : List.Forall₂ (fun A A' => A' = c * A) l m) : m = l.map (c * ·) := forall₂_map_of h

theorem applyMask_map_list {α β : Type} (f : α → β) (mask : List Bool) (l : List α) :
    applyMask mask (l.map f) = (applyMask mask l).map f := by
  unfold applyMask
  rw [List.zip_map_left, List.filter_map, List.map_map, List.map_map]
  rfl

/-- The areas, and which of them are positive. -/
theorem masked_areas {c : K} (hc : 0 < c) {l m : List K} (h : List.Forall₂ (fun A A' => A' = c * A) l m) :
    m = l.map (c * ·) ∧ (m.map fun a => decide (a > 0)) = l.map fun a => decide (a > 0) := by
  have e := forall₂_scale h
  refine ⟨e, ?_⟩
  rw [e, List.map_map]
  refine List.map_congr_left fun a _ => decide_eq_decide.2 ?_
  exact mul_pos_iff_of_pos_left hc

/-- **C117**, `intersect_boxes` (exact arithmetic): mesh and boxes are stretched along the axes and translated. The pairs are the same,
in the same order, and the areas are multiplied by both factors. Exceptions are the same as well. -/
theorem C117_intersect_boxes (hkx : 0 < kx) (hky : 0 < ky) (hin : InRange env vertices)
    (hin' : InRange env (vertices.map (mapPt (stretch kx ky x0 y0))))
    (ht : CellTree.init env vertices faces fill nBuckets cellsPerLeaf sched = .ok t)
    (ht' : CellTree.init env (vertices.map (mapPt (stretch kx ky x0 y0))) faces fill nBuckets cellsPerLeaf sched = .ok t')
    (boxes : List (Box K)) (nThreads : Nat) (sched1 : List Nat) (sched2 : Nat → List Nat) :
    t'.intersectBoxes (boxes.map (mapBox (stretch kx ky x0 y0))) nThreads sched1 sched2 =
      (fun r => (r.1, r.2.1, r.2.2.map (kx * ky * ·))) <$> t.intersectBoxes boxes nThreads sched1 sched2 := by
  have h := stretch_tree hkx hky hin hin' ht ht'
  have hb : List.Forall₂ (BoxRel (StretchRel kx ky x0 y0)) boxes (boxes.map (mapBox (stretch kx ky x0 y0))) := by
    rw [List.forall₂_map_right_iff, List.forall₂_same]
    exact fun b _ => boxRel_iff.2 ⟨rfl, rfl, rfl, rfl⟩
  have hl := locateBoxes_rel (stretch_order hkx hky) h hb nThreads sched1
  unfold CellTree.locateBoxes at hl
  unfold CellTree.intersectBoxes
  rw [← hl, ← h.elements]
  refine RelM.map_eq (S := fun r r' => r' = (r.1, r.2.1, r.2.2.map (kx * ky * ·))) ?_ fun _ _ h => h
  refine (RelM.of_eq rfl).bind ?_
  rintro ⟨i, j⟩ _ rfl
  refine (boxAreaOfIntersection_rel hkx hky hb h.vertices t.data.elements i j (sched2 i.length)).bind fun A A' hA => ?_
  obtain ⟨e1, e2⟩ := masked_areas (mul_pos hkx hky) hA
  show (_, _, _) = (_, _, _)
  rw [e2, e1, applyMask_map_list]

/-- What `locate_faces` has in common in both coordinates. -/
theorem locateFaces_rel (hkx : 0 < kx) (hky : 0 < ky) (h : TreeRel (StretchRel kx ky x0 y0) t t')
    (hvt : t.data.vertices = vertices) (ws : List (Pt K))
    (hr : ProductsInRange env (ws ++ vertices))
    (hr' : ProductsInRange env ((ws ++ vertices).map (mapPt (stretch kx ky x0 y0)))) (q : IntArr) (nThreads : Nat) (s s1 : List Nat)
    (s2 : Nat → List Nat) :
    t'.locateFaces env (ws.map (mapPt (stretch kx ky x0 y0))) q nThreads s s1 s2 = t.locateFaces env ws q nThreads s s1 s2 := by
  have hw : List.Forall₂ (PtRel (StretchRel kx ky x0 y0)) ws (ws.map (mapPt (stretch kx ky x0 y0))) :=
    forall₂_mapPt (f := stretch kx ky x0 y0) fun p _ => ⟨rfl, rfl⟩
  have hvm : t'.data.vertices = vertices.map (mapPt (stretch kx ky x0 y0)) := by
    rw [(h.sameShape fun d x x' h => h).vertices, hvt]
  subst hvt
  unfold CellTree.locateFaces
  rw [← counterClockwise_rel (stretch_turn hkx hky) hw, ← h.elements]
  refine (RelM.bind (T := Eq) (RelM.of_eq rfl) fun rows rows' hrows => ?_).eq.symm
  subst hrows
  refine (buildFaceBboxes_rel (stretch_order hkx hky) hw rows).bind fun b b' hb => ?_
  have hl := locateBoxes_rel (stretch_order hkx hky) h hb nThreads s1
  unfold CellTree.locateBoxes at hl
  rw [hl]
  refine (RelM.of_eq rfl).bind ?_
  rintro ⟨i, j⟩ _ rfl
  rw [List.map_append, ← hvm] at hr'
  simp only
  rw [polygonsIntersect_rel hkx hky hw h.vertices hr hr']
  exact RelM.of_eq rfl

theorem init_vertices (ht : CellTree.init env vertices faces fill nBuckets cellsPerLeaf sched = .ok t) : t.data.vertices = vertices := by
  unfold CellTree.init at ht
  split at ht
  · cases ht
  split at ht
  · cases ht
  obtain ⟨_, _, ht⟩ := bind_eq_ok.1 ht
  obtain ⟨_, _, ht⟩ := bind_eq_ok.1 ht
  unfold CellTree.ofFaces at ht
  obtain ⟨_, _, ht⟩ := bind_eq_ok.1 ht
  obtain ⟨_, _, ht⟩ := bind_eq_ok.1 ht
  obtain ⟨_, _, ht⟩ := bind_eq_ok.1 ht
  cases ht
  rfl

/-- **C117**, `locate_faces` (exact arithmetic): both meshes are stretched along the axes and translated. The pairs are the same, in the
same order, and so is the content of the array of the caller afterwards. -/
theorem C117_locate_faces (hkx : 0 < kx) (hky : 0 < ky) (hin : InRange env vertices)
    (hin' : InRange env (vertices.map (mapPt (stretch kx ky x0 y0))))
    (ht : CellTree.init env vertices faces fill nBuckets cellsPerLeaf sched = .ok t)
    (ht' : CellTree.init env (vertices.map (mapPt (stretch kx ky x0 y0))) faces fill nBuckets cellsPerLeaf sched = .ok t')
    (ws : List (Pt K)) (hr : ProductsInRange env (ws ++ vertices))
    (hr' : ProductsInRange env ((ws ++ vertices).map (mapPt (stretch kx ky x0 y0)))) (q : IntArr) (nThreads : Nat) (s s1 : List Nat)
    (s2 : Nat → List Nat) :
    t'.locateFaces env (ws.map (mapPt (stretch kx ky x0 y0))) q nThreads s s1 s2 = t.locateFaces env ws q nThreads s s1 s2 :=
  locateFaces_rel hkx hky (stretch_tree hkx hky hin hin' ht ht') (init_vertices ht) ws hr hr' q nThreads s s1 s2

/-- **C117**, `intersect_faces` (exact arithmetic): both meshes are stretched along the axes and translated. The pairs are the same, in
the same order, and the areas are multiplied by both factors. -/
theorem C117_intersect_faces (hkx : 0 < kx) (hky : 0 < ky) (hin : InRange env vertices)
    (hin' : InRange env (vertices.map (mapPt (stretch kx ky x0 y0))))
    (ht : CellTree.init env vertices faces fill nBuckets cellsPerLeaf sched = .ok t)
    (ht' : CellTree.init env (vertices.map (mapPt (stretch kx ky x0 y0))) faces fill nBuckets cellsPerLeaf sched = .ok t')
    (ws : List (Pt K)) (hr : ProductsInRange env (ws ++ vertices))
    (hr' : ProductsInRange env ((ws ++ vertices).map (mapPt (stretch kx ky x0 y0)))) (heap : Heap) (ref : Nat) (fillA : Int)
    (nThreads : Nat) (s s1 : List Nat) (s2 s3 : Nat → List Nat) :
    t'.intersectFacesH env heap (ws.map (mapPt (stretch kx ky x0 y0))) ref fillA nThreads s s1 s2 s3 =
      (fun r => (r.1, r.2.1, r.2.2.1, r.2.2.2.map (kx * ky * ·))) <$> t.intersectFacesH env heap ws ref fillA nThreads s s1 s2 s3 := by
  have h := stretch_tree hkx hky hin hin' ht ht'
  have hw : List.Forall₂ (PtRel (StretchRel kx ky x0 y0)) ws (ws.map (mapPt (stretch kx ky x0 y0))) :=
    forall₂_mapPt (f := stretch kx ky x0 y0) fun p _ => ⟨rfl, rfl⟩
  unfold CellTree.intersectFacesH CellTree.locateFacesH
  simp only [C117_locate_faces hkx hky hin hin' ht ht' ws hr hr', ← h.elements]
  refine RelM.map_eq (S := fun r r' => r' = (r.1, r.2.1, r.2.2.1, r.2.2.2.map (kx * ky * ·))) ?_ fun _ _ h => h
  refine (RelM.of_eq rfl).bind fun q q' hq => ?_
  subst hq
  refine (RelM.of_eq rfl).bind fun q q' hq => ?_
  subst hq
  refine (RelM.of_eq rfl).bind ?_
  rintro ⟨h', i, j⟩ _ rfl
  refine (RelM.of_eq rfl).bind fun f f' hf => ?_
  subst hf
  refine (areaOfIntersection_rel hkx hky hw h.vertices f.rows t.data.elements i j (s3 i.length)).bind fun A A' hA => ?_
  obtain ⟨e1, e2⟩ := masked_areas (mul_pos hkx hky) hA
  show (_, _, _, _) = (_, _, _, _)
  rw [e2, e1, applyMask_map_list]

end

instance {vertices : List (Pt ℚ)} {env : Env ℚ} : Decidable (ProductsInRange env vertices) :=
  inferInstanceAs (Decidable (∀ p ∈ vertices, ∀ q ∈ vertices, ∀ v ∈ vertices,
    env.floatMin < v.x * (p.y - q.y) + v.y * (q.x - p.x) ∧ v.x * (p.y - q.y) + v.y * (q.x - p.x) < env.floatMax))

/-- The hypotheses. -/
theorem Ex.units_range : InRange qEnv qVerts ∧ InRange qEnv (qVerts.map (mapPt units)) ∧
    ProductsInRange qEnv (queryVerts ++ qVerts) ∧ ProductsInRange qEnv ((queryVerts ++ qVerts).map (mapPt units)) := by decide +kernel

set_option synthInstance.maxSize 1000 in
/-- Other units for both axes and another origin: the areas are multiplied by `7 / 3`. -/
example : ∃ t t' h, CellTree.init Ex.qEnv Ex.qVerts Ex.faces (-999) 4 1 [2, 0, 3, 1] = .ok t ∧
    CellTree.init Ex.qEnv (Ex.qVerts.map (mapPt Ex.units)) Ex.faces (-999) 4 1 [2, 0, 3, 1] = .ok t' ∧
    t.intersectFacesH Ex.qEnv [Ex.queryFaces] Ex.queryVerts 0 (-1) 2 [1, 0] [1, 0] List.range List.range =
      .ok (h, [0, 0, 0, 1, 1], [1, 3, 0, 3, 0], [1 / 2, 1 / 2, 1, 4 / 15, 2 / 5]) ∧
    t'.intersectFacesH Ex.qEnv [Ex.queryFaces] (Ex.queryVerts.map (mapPt Ex.units)) 0 (-1) 2 [1, 0] [1, 0] List.range List.range =
      .ok (h, [0, 0, 0, 1, 1], [1, 3, 0, 3, 0], [7 / 6, 7 / 6, 7 / 3, 28 / 45, 14 / 15]) ∧
    t'.intersectBoxes ([⟨1, 3, 1, 3⟩, ⟨3, 4, 0, 1⟩].map (mapBox Ex.units)) 2 [1, 0] List.range =
      .ok ([0, 0, 0, 0, 1, 1], [2, 1, 3, 0, 2, 1], [7 / 6, 7 / 6, 7 / 4, 7 / 3, 7 / 6, 7 / 6]) := by
  obtain ⟨t, h1, h2⟩ := bind_eq_ok.1 (show (CellTree.init Ex.qEnv Ex.qVerts Ex.faces (-999) 4 1 [2, 0, 3, 1] >>= fun t =>
    t.intersectFacesH Ex.qEnv [Ex.queryFaces] Ex.queryVerts 0 (-1) 2 [1, 0] [1, 0] List.range List.range >>= fun r =>
    t.intersectBoxes [⟨1, 3, 1, 3⟩, ⟨3, 4, 0, 1⟩] 2 [1, 0] List.range >>= fun s => Except.ok (r.2, s)) =
      .ok (([0, 0, 0, 1, 1], [1, 3, 0, 3, 0], [1 / 2, 1 / 2, 1, 4 / 15, 2 / 5]),
        ([0, 0, 0, 0, 1, 1], [2, 1, 3, 0, 2, 1], [1 / 2, 1 / 2, 3 / 4, 1, 1 / 2, 1 / 2])) by decide +kernel)
  obtain ⟨⟨h, r⟩, h3, h4⟩ := bind_eq_ok.1 h2
  obtain ⟨s, h5, h6⟩ := bind_eq_ok.1 h4
  obtain ⟨rfl, rfl⟩ := Prod.mk.inj (Except.ok.inj h6)
  obtain ⟨u1, u2, u3, u4⟩ := Ex.units_range
  obtain ⟨t', h1', -⟩ := (C115_same_tree (kx := 1 / 3) (ky := 7) (x0 := -100) (y0 := 50) (by norm_num) (by norm_num) u1 u2).1 t h1
  refine ⟨t, t', h, h1, h1', h3, ?_, ?_⟩
  · have := C117_intersect_faces (by norm_num) (by norm_num) u1 u2 h1 h1' Ex.queryVerts u3 u4 [Ex.queryFaces] 0 (-1) 2 [1, 0] [1, 0]
      List.range List.range
    rw [h3] at this
    refine this.trans ?_
    show (Except.ok (h, _, _, _) : M _) = Except.ok (h, _, _, _)
    congr 4
    show [(1 / 2 : ℚ), 1 / 2, 1, 4 / 15, 2 / 5].map (1 / 3 * 7 * ·) = _
    decide +kernel
  · have := C117_intersect_boxes (by norm_num) (by norm_num) u1 u2 h1 h1' [⟨1, 3, 1, 3⟩, ⟨3, 4, 0, 1⟩] 2 [1, 0] List.range
    rw [h5] at this
    refine this.trans ?_
    decide +kernel

end Celltree
