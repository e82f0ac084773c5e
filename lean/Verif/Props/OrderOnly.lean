import Verif.Spec.Coords
import Verif.Props.Boxes
import Verif.Props.Floats

/-!
# Box search only compares coordinates: C95
-/

namespace Celltree

section
variable {F : Type} [Add F] [Sub F] [Mul F] [Div F] [Neg F] [Zero F] [One F] [IntCast F]
  [LT F] [LE F] [BEq F] [DecidableLT F] [DecidableLE F] [NumOrd F]
variable {G : Type} [Add G] [Sub G] [Mul G] [Div G] [Neg G] [Zero G] [One G] [IntCast G]
  [LT G] [LE G] [BEq G] [DecidableLT G] [DecidableLE G] [NumOrd G]
variable {envF : Env F} {envG : Env G} {vertices : List (Pt F)} {faces : IntArr} {fill nb cpl nb' cpl' : Int}
  {t : CellTree F} {t' : CellTree G} {boxes : List (Box F)} {nThreads nThreads' : Nat} {sched sched' : List Nat}

theorem facePts_map (P : Pt F → Pt G) (vertices : List (Pt F)) (fill : Int) (r : List Int) :
    facePts (vertices.map P) fill r = (facePts vertices fill r).map P := by
  unfold facePts
  rw [List.map_filterMap]
  congr 1
  funext v
  rw [List.getElem?_map]

theorem facePts_mem {vertices : List (Pt F)} {fill : Int} {r : List Int} {p : Pt F} (h : p ∈ facePts vertices fill r) :
    p ∈ vertices := by
  unfold facePts at h
  obtain ⟨k, _, hk⟩ := List.mem_filterMap.1 h
  exact List.mem_of_getElem? hk

theorem coords_mem {vertices : List (Pt F)} {boxes : List (Box F)} {q : Box F} (hq : q ∈ boxes) :
    (∀ p ∈ vertices, p.x ∈ xCoords vertices boxes ∧ p.y ∈ yCoords vertices boxes) ∧
    q.xmin ∈ xCoords vertices boxes ∧ q.xmax ∈ xCoords vertices boxes ∧
    q.ymin ∈ yCoords vertices boxes ∧ q.ymax ∈ yCoords vertices boxes := by
  unfold xCoords yCoords
  simp only [List.mem_append, List.mem_map, List.mem_flatMap, List.mem_cons, List.not_mem_nil, or_false]
  exact ⟨fun p hp => ⟨Or.inl ⟨p, hp, rfl⟩, Or.inl ⟨p, hp, rfl⟩⟩, Or.inr ⟨q, hq, Or.inl rfl⟩, Or.inr ⟨q, hq, Or.inr rfl⟩,
    Or.inr ⟨q, hq, Or.inl rfl⟩, Or.inr ⟨q, hq, Or.inr rfl⟩⟩

/-- Two searches find the same pairs if the same pairs overlap. -/
theorem same_pairs {P : Pt F → Pt G} {Q : Box F → Box G} (hm : GoodMesh envF vertices faces fill)
    (hm' : GoodMesh envG (vertices.map P) faces fill) (ht : Makes envF vertices faces fill nb cpl t)
    (ht' : Makes envG (vertices.map P) faces fill nb' cpl' t')
    (h : ∀ q ∈ boxes, ∀ r ∈ faces.rows,
      (BoxOverlapsPts (Q q) ((facePts vertices fill r).map P) ↔ BoxOverlapsPts q (facePts vertices fill r)))
    (hn : 0 < nThreads) (hs : sched.Perm (List.range nThreads)) (hn' : 0 < nThreads') (hs' : sched'.Perm (List.range nThreads')) :
    ∃ ii jj ii' jj', t.locateBoxes boxes nThreads sched = .ok (ii, jj) ∧
      t'.locateBoxes (boxes.map Q) nThreads' sched' = .ok (ii', jj') ∧ ii = ii' ∧ (ii.zip jj).Perm (ii'.zip jj') := by
  obtain ⟨ii, jj, h1, h2, h3⟩ := C01_locate_boxes_exact hm ht boxes hn hs
  obtain ⟨ii', jj', h1', h2', h3'⟩ := C01_locate_boxes_exact hm' ht' (boxes.map Q) hn' hs'
  obtain ⟨a, b, g1, g2, g3, g4⟩ := C02_pairs_once_grouped hm ht boxes hn hs
  obtain ⟨a', b', g1', g2', g3', g4'⟩ := C02_pairs_once_grouped hm' ht' (boxes.map Q) hn' hs'
  rw [h1] at g1
  cases g1
  rw [h1'] at g1'
  cases g1'
  have hp : (ii.zip jj).Perm (ii'.zip jj') := by
    rw [List.perm_ext_iff_of_nodup g3 g3']
    rintro ⟨i, j⟩
    rw [h3, h3']
    constructor
    · rintro ⟨q, r, e1, e2, e3⟩
      exact ⟨Q q, r, by rw [List.getElem?_map, e1]; rfl, e2, by
        rw [facePts_map]; exact (h q (List.mem_of_getElem? e1) r (List.mem_of_getElem? e2)).2 e3⟩
    · rintro ⟨q', r, e1, e2, e3⟩
      rw [List.getElem?_map] at e1
      obtain ⟨q, e0, rfl⟩ := Option.map_eq_some_iff.1 e1
      rw [facePts_map] at e3
      exact ⟨q, r, e0, e2, (h q (List.mem_of_getElem? e0) r (List.mem_of_getElem? e2)).1 e3⟩
  refine ⟨ii, jj, ii', jj', h1, h1', ?_, hp⟩
  have hp1 : ii.Perm ii' := by
    have := hp.map Prod.fst
    rwa [List.map_fst_zip (by omega), List.map_fst_zip (by omega)] at this
  exact hp1.eq_of_pairwise' g4 g4'

/-- **C95**: a strictly increasing change of the x-coordinates and of the y-coordinates, also to another kind of numbers, does
not change which pairs `locate_boxes` finds. -/
theorem C95_increasing {φ ψ : F → G} (hφ : ∀ a ∈ xCoords vertices boxes, ∀ b ∈ xCoords vertices boxes, (φ a < φ b ↔ a < b))
    (hψ : ∀ a ∈ yCoords vertices boxes, ∀ b ∈ yCoords vertices boxes, (ψ a < ψ b ↔ a < b))
    (hm : GoodMesh envF vertices faces fill) (hm' : GoodMesh envG (vertices.map fun p => ⟨φ p.x, ψ p.y⟩) faces fill)
    (ht : Makes envF vertices faces fill nb cpl t) (ht' : Makes envG (vertices.map fun p => ⟨φ p.x, ψ p.y⟩) faces fill nb' cpl' t')
    (hn : 0 < nThreads) (hs : sched.Perm (List.range nThreads)) (hn' : 0 < nThreads') (hs' : sched'.Perm (List.range nThreads')) :
    ∃ ii jj ii' jj', t.locateBoxes boxes nThreads sched = .ok (ii, jj) ∧
      t'.locateBoxes (boxes.map fun q => ⟨φ q.xmin, φ q.xmax, ψ q.ymin, ψ q.ymax⟩) nThreads' sched' = .ok (ii', jj') ∧
      ii = ii' ∧ (ii.zip jj).Perm (ii'.zip jj') := by
  refine same_pairs hm hm' ht ht' (fun q hq r _ => ?_) hn hs hn' hs'
  obtain ⟨c1, c2, c3, c4, c5⟩ := coords_mem (vertices := vertices) hq
  have c := fun p hp => c1 p (facePts_mem (r := r) (fill := fill) hp)
  simp only [BoxOverlapsPts, List.mem_map, exists_exists_and_eq_and]
  refine and_congr (exists_congr fun p => and_congr_right fun hp => hφ _ c2 _ (c p hp).1) (and_congr
    (exists_congr fun p => and_congr_right fun hp => hφ _ (c p hp).1 _ c3) (and_congr
    (exists_congr fun p => and_congr_right fun hp => hψ _ c4 _ (c p hp).2)
    (exists_congr fun p => and_congr_right fun hp => hψ _ (c p hp).2 _ c5)))

/-- **C95**: the same for a mirrored mesh: with a strictly decreasing change of the x-coordinates the left and right sides of the
boxes are exchanged. -/
theorem C95_mirrored {φ ψ : F → G} (hφ : ∀ a ∈ xCoords vertices boxes, ∀ b ∈ xCoords vertices boxes, (φ a < φ b ↔ b < a))
    (hψ : ∀ a ∈ yCoords vertices boxes, ∀ b ∈ yCoords vertices boxes, (ψ a < ψ b ↔ a < b))
    (hm : GoodMesh envF vertices faces fill) (hm' : GoodMesh envG (vertices.map fun p => ⟨φ p.x, ψ p.y⟩) faces fill)
    (ht : Makes envF vertices faces fill nb cpl t) (ht' : Makes envG (vertices.map fun p => ⟨φ p.x, ψ p.y⟩) faces fill nb' cpl' t')
    (hn : 0 < nThreads) (hs : sched.Perm (List.range nThreads)) (hn' : 0 < nThreads') (hs' : sched'.Perm (List.range nThreads')) :
    ∃ ii jj ii' jj', t.locateBoxes boxes nThreads sched = .ok (ii, jj) ∧
      t'.locateBoxes (boxes.map fun q => ⟨φ q.xmax, φ q.xmin, ψ q.ymin, ψ q.ymax⟩) nThreads' sched' = .ok (ii', jj') ∧
      ii = ii' ∧ (ii.zip jj).Perm (ii'.zip jj') := by
  refine same_pairs hm hm' ht ht' (fun q hq r _ => ?_) hn hs hn' hs'
  obtain ⟨c1, c2, c3, c4, c5⟩ := coords_mem (vertices := vertices) hq
  have c := fun p hp => c1 p (facePts_mem (r := r) (fill := fill) hp)
  simp only [BoxOverlapsPts, List.mem_map, exists_exists_and_eq_and]
  rw [and_left_comm]
  refine and_congr (exists_congr fun p => and_congr_right fun hp => hφ _ (c p hp).1 _ c2) (and_congr
    (exists_congr fun p => and_congr_right fun hp => hφ _ c3 _ (c p hp).1) (and_congr
    (exists_congr fun p => and_congr_right fun hp => hψ _ c4 _ (c p hp).2)
    (exists_congr fun p => and_congr_right fun hp => hψ _ (c p hp).2 _ c5)))

/-- **C95**: the same if the x-coordinates and the y-coordinates are exchanged. -/
theorem C95_transposed {t' : CellTree F} (hm : GoodMesh envF vertices faces fill)
    (hm' : GoodMesh envF (vertices.map fun p => ⟨p.y, p.x⟩) faces fill)
    (ht : Makes envF vertices faces fill nb cpl t) (ht' : Makes envF (vertices.map fun p => ⟨p.y, p.x⟩) faces fill nb' cpl' t')
    (hn : 0 < nThreads) (hs : sched.Perm (List.range nThreads)) (hn' : 0 < nThreads') (hs' : sched'.Perm (List.range nThreads')) :
    ∃ ii jj ii' jj', t.locateBoxes boxes nThreads sched = .ok (ii, jj) ∧
      t'.locateBoxes (boxes.map fun q => ⟨q.ymin, q.ymax, q.xmin, q.xmax⟩) nThreads' sched' = .ok (ii', jj') ∧
      ii = ii' ∧ (ii.zip jj).Perm (ii'.zip jj') := by
  refine same_pairs hm hm' ht ht' (fun q _ r _ => ?_) hn hs hn' hs'
  simp [BoxOverlapsPts]
  tauto

end

/-! ## The hypotheses can be met -/

namespace Ex

/-- The mesh with coordinates divided by three. -/
def thirdVerts : List (Pt ℚ) := verts fun i => i / 3

def thirdBoxes : List (Box ℚ) := [⟨1 / 2, 1, 1 / 2, 5 / 6⟩, ⟨2 / 3, 4 / 3, 0, 2 / 3⟩, ⟨2, 3, 2, 3⟩]

theorem third_good : GoodMesh Ex.qEnv Ex.thirdVerts Ex.faces (-999) :=
  ⟨Ex.faces_valid, fun _ _ _ _ => ⟨trivial, trivial⟩, trivial, trivial⟩

theorem third_good_rounded : GoodMesh Fl.env (Ex.thirdVerts.map fun p => ⟨Fl.rnd p.x, Fl.rnd p.y⟩) Ex.faces (-999) := by
  refine ⟨Ex.faces_valid, fun r hr p hp => ?_, nofun, nofun⟩
  have : ∀ p ∈ Ex.thirdVerts.map (fun p => (⟨Fl.rnd p.x, Fl.rnd p.y⟩ : Pt Fl)), p.x ≠ Fl.nan ∧ p.y ≠ Fl.nan := by decide +kernel
  exact this p (facePts_mem hp)

end Ex

/-- A mesh with exact coordinates that do not exist in binary64, and the same mesh with rounded coordinates. -/
example : (∀ a ∈ xCoords Ex.thirdVerts Ex.thirdBoxes, ∀ b ∈ xCoords Ex.thirdVerts Ex.thirdBoxes, (Fl.rnd a < Fl.rnd b ↔ a < b)) ∧
    (∀ a ∈ yCoords Ex.thirdVerts Ex.thirdBoxes, ∀ b ∈ yCoords Ex.thirdVerts Ex.thirdBoxes, (Fl.rnd a < Fl.rnd b ↔ a < b)) ∧
    GoodMesh Ex.qEnv Ex.thirdVerts Ex.faces (-999) ∧
    GoodMesh Fl.env (Ex.thirdVerts.map fun p => ⟨Fl.rnd p.x, Fl.rnd p.y⟩) Ex.faces (-999) ∧
    (∃ t, Makes Ex.qEnv Ex.thirdVerts Ex.faces (-999) 4 1 t ∧ t.locateBoxes Ex.thirdBoxes 1 [0] = .ok ([0, 0, 0, 0, 1, 1], [2, 1, 3, 0, 2, 1])) ∧
    ∃ t, Makes Fl.env (Ex.thirdVerts.map fun p => ⟨Fl.rnd p.x, Fl.rnd p.y⟩) Ex.faces (-999) 2 2 t := by
  refine ⟨by decide +kernel, by decide +kernel, Ex.third_good, Ex.third_good_rounded, ?_, ?_⟩
  · obtain ⟨t, h1, h2⟩ := bind_eq_ok.1 (show (CellTree.init Ex.qEnv Ex.thirdVerts Ex.faces (-999) 4 1 [2, 0, 3, 1] >>= fun t =>
      t.locateBoxes Ex.thirdBoxes 1 [0]) = .ok ([0, 0, 0, 0, 1, 1], [2, 1, 3, 0, 2, 1]) by decide +kernel)
    exact ⟨t, ⟨_, by decide, h1⟩, h2⟩
  · obtain ⟨t, h1, h2⟩ := bind_eq_ok.1 (show (CellTree.init Fl.env (Ex.thirdVerts.map fun p => ⟨Fl.rnd p.x, Fl.rnd p.y⟩) Ex.faces
      (-999) 2 2 [2, 0, 3, 1] >>= fun _ => .ok ()) = .ok () by decide +kernel)
    exact ⟨t, _, by decide, h1⟩

end Celltree
