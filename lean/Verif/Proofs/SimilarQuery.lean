import Verif.Proofs.Similar
import Verif.Proofs.Init

/-!
# Construction and queries of two meshes with the same comparisons
-/

set_option linter.unusedSectionVars false

namespace Celltree

variable {F : Type} [Add F] [Sub F] [Mul F] [Div F] [Zero F] [One F] [Neg F] [IntCast F]
  [LT F] [LE F] [BEq F] [DecidableLT F] [DecidableLE F]

/-- Related points. -/
def PtRel (R : Bool → F → F → Prop) (p p' : Pt F) : Prop := R false p.x p'.x ∧ R true p.y p'.y

/-- The directions of turns agree. -/
structure SimilarTurn (R : Bool → F → F → Prop) : Prop where
  zero : ∀ {a a' b b' c c'}, PtRel R a a' → PtRel R b b' → PtRel R c c' →
    (cross (toVector a b) (toVector a c) == 0) = (cross (toVector a' b') (toVector a' c') == 0)
  neg : ∀ {a a' b b' c c'}, PtRel R a a' → PtRel R b b' → PtRel R c c' →
    (cross (toVector a b) (toVector a c) < 0 ↔ cross (toVector a' b') (toVector a' c') < 0)

/-- The tests for points agree, with these tolerances. -/
structure SimilarPoint (R : Bool → F → F → Prop) (tol tol' : F) : Prop where
  eqv : ∀ {a a' b b'}, PtRel R a a' → PtRel R b b' → a.eqv b = a'.eqv b'
  near : ∀ {p p' a a' b b'}, PtRel R p p' → PtRel R a a' → PtRel R b b' →
    withinPerpendicularDistance (cross (toVector p a) (toVector p b)) (toVector a b) tol =
      withinPerpendicularDistance (cross (toVector p' a') (toVector p' b')) (toVector a' b') tol'
  bounds : ∀ {p p' a a' b b'}, PtRel R p p' → PtRel R a a' → PtRel R b b' → inBounds p a b = inBounds p' a' b'
  ray : ∀ {p p' a a' b b'}, PtRel R p p' → PtRel R a a' → PtRel R b b' → rayCrosses p a b = rayCrosses p' a' b'

section
variable {R : Bool → F → F → Prop} {env : Env F} {nb : Nat} {vs vs' : List (Pt F)}

/-! ## Orientation -/

theorem ccwLoop_rel (hT : SimilarTurn R) (hv : List.Forall₂ (PtRel R) vs vs') (len n i : Nat) {a a' b b' : Pt F} (ha : PtRel R a a')
    (hb : PtRel R b b') (face : List Int) : ccwLoop vs len n i a b face = ccwLoop vs' len n i a' b' face := by
  induction n generalizing i a a' b b' face with
  | zero => rfl
  | succ n ih =>
    unfold ccwLoop
    refine (RelM.bind (T := Eq) (RelM.of_eq rfl) fun j j' hj => ?_).eq
    subst hj
    refine (rdI_rel hv j).bind fun c c' hc => RelM.of_eq ?_
    simp only
    rw [hT.zero ha hb hc, ih _ hb hc]
    by_cases h0 : (cross (toVector a' b') (toVector a' c') == 0) = true
    · rw [if_pos h0, if_pos h0]
    · rw [if_neg h0, if_neg h0]
      by_cases hn : cross (toVector a b) (toVector a c) < 0
      · rw [if_pos hn, if_pos ((hT.neg ha hb hc).1 hn)]
        simp only [ih (i + 1) ha hb]
      · rw [if_neg hn, if_neg fun h => hn ((hT.neg ha hb hc).2 h)]

theorem ccwFace_rel (hT : SimilarTurn R) (hv : List.Forall₂ (PtRel R) vs vs') (face : List Int) : ccwFace vs face = ccwFace vs' face := by
  unfold ccwFace
  refine (RelM.bind (T := Eq) (RelM.of_eq rfl) fun j j' hj => ?_).eq
  subst hj
  refine (rdI_rel hv j).bind fun a a' ha => ?_
  refine (RelM.of_eq rfl).bind fun j j' hj => ?_
  subst hj
  refine (rdI_rel hv j).bind fun b b' hb => RelM.of_eq ?_
  exact ccwLoop_rel hT hv _ _ _ ha hb _

theorem counterClockwise_rel (hT : SimilarTurn R) (hv : List.Forall₂ (PtRel R) vs vs') (rows : List (List Int)) (sched : List Nat) :
    counterClockwise vs rows sched = counterClockwise vs' rows sched := by
  unfold counterClockwise
  simp only [ccwFace_rel hT hv]

/-! ## Boxes -/

theorem fmin_rel (hR : SimilarOrder R) {d : Bool} {x x' y y' : F} (hx : R d x x') (hy : R d y y') : R d (fmin x y) (fmin x' y') := by
  unfold fmin
  by_cases h : y < x
  · rw [if_pos h, if_pos ((hR.lt hy hx).1 h)]; exact hy
  · rw [if_neg h, if_neg fun g => h ((hR.lt hy hx).2 g)]; exact hx

theorem fmax_rel (hR : SimilarOrder R) {d : Bool} {x x' y y' : F} (hx : R d x x') (hy : R d y y') : R d (fmax x y) (fmax x' y') := by
  unfold fmax
  by_cases h : x < y
  · rw [if_pos h, if_pos ((hR.lt hx hy).1 h)]; exact hy
  · rw [if_neg h, if_neg fun g => h ((hR.lt hx hy).2 g)]; exact hx

theorem boxRel_iff {b b' : Box F} : BoxRel R b b' ↔
    R false b.xmin b'.xmin ∧ R false b.xmax b'.xmax ∧ R true b.ymin b'.ymin ∧ R true b.ymax b'.ymax := by
  constructor
  · intro h
    exact ⟨(h false).1, (h false).2, (h true).1, (h true).2⟩
  · rintro ⟨h1, h2, h3, h4⟩ d
    cases d
    · exact ⟨h1, h2⟩
    · exact ⟨h3, h4⟩

theorem boundingBoxLoop_rel (hR : SimilarOrder R) (hv : List.Forall₂ (PtRel R) vs vs') (row : List Int) {b b' : Box F}
    (hb : BoxRel R b b') : RelM (BoxRel R) (boundingBoxLoop vs row b) (boundingBoxLoop vs' row b') := by
  induction row generalizing b b' with
  | nil => exact hb
  | cons i rest ih =>
    unfold boundingBoxLoop
    split
    · exact hb
    · refine (rdI_rel hv i).bind fun p p' hp => ih ?_
      obtain ⟨h1, h2, h3, h4⟩ := boxRel_iff.1 hb
      exact boxRel_iff.2 ⟨fmin_rel hR h1 hp.1, fmax_rel hR h2 hp.1, fmin_rel hR h3 hp.2, fmax_rel hR h4 hp.2⟩

theorem boundingBox_rel (hR : SimilarOrder R) (hv : List.Forall₂ (PtRel R) vs vs') (row : List Int) :
    RelM (BoxRel R) (boundingBox row vs) (boundingBox row vs') := by
  cases row with
  | nil => exact rfl
  | cons i rest =>
    unfold boundingBox
    refine (rdI_rel hv i).bind fun p p' hp => boundingBoxLoop_rel hR hv rest ?_
    exact boxRel_iff.2 ⟨hp.1, hp.1, hp.2, hp.2⟩

theorem buildFaceBboxes_rel (hR : SimilarOrder R) (hv : List.Forall₂ (PtRel R) vs vs') (rows : List (List Int)) :
    RelM (List.Forall₂ (BoxRel R)) (buildFaceBboxes rows vs) (buildFaceBboxes rows vs') := by
  unfold buildFaceBboxes
  refine mapM_rel (S := Eq) (List.forall₂_same.2 fun _ _ => rfl) fun r r' h => ?_
  subst h
  exact boundingBox_rel hR hv r

theorem bboxTree_rel (hR : SimilarOrder R) {l l' : List (Box F)} (h : List.Forall₂ (BoxRel R) l l') :
    RelM (BoxRel R) (bboxTree l) (bboxTree l') := by
  cases h with
  | nil => exact rfl
  | cons h ht =>
    show BoxRel R _ _
    rename_i b b' rest rest'
    induction ht generalizing b b' with
    | nil => exact h
    | cons hx _ ih =>
      rw [List.foldl_cons, List.foldl_cons]
      apply ih
      obtain ⟨h1, h2, h3, h4⟩ := boxRel_iff.1 h
      obtain ⟨g1, g2, g3, g4⟩ := boxRel_iff.1 hx
      exact boxRel_iff.2 ⟨fmin_rel hR h1 g1, fmax_rel hR h2 g2, fmin_rel hR h3 g3, fmax_rel hR h4 g4⟩

/-! ## The tree -/

/-- Objects of the same structure with related coordinates. -/
structure TreeRel (R : Bool → F → F → Prop) (t t' : CellTree F) : Prop where
  elements : t.data.elements = t'.data.elements
  vertices : List.Forall₂ (PtRel R) t.data.vertices t'.data.vertices
  nodes : List.Forall₂ (NodeRel R) t.data.nodes t'.data.nodes
  bbIndices : t.data.bbIndices = t'.data.bbIndices
  bbCoords : List.Forall₂ (BoxRel R) t.data.bbCoords t'.data.bbCoords
  bbox : BoxRel R t.data.bbox t'.data.bbox
  cellsPerLeaf : t.data.cellsPerLeaf = t'.data.cellsPerLeaf
  nMaxVert : t.nMaxVert = t'.nMaxVert
  nBuckets : t.nBuckets = t'.nBuckets

theorem init_rel [NumOrd F] {faces : IntArr} {fill nBuckets cellsPerLeaf : Int} (hR : Similar R env nBuckets.toNat) (hT : SimilarTurn R)
    (hv : List.Forall₂ (PtRel R) vs vs') (hmm : NumOrd.num env.floatMax ∧ NumOrd.num env.floatMin) (sched : List Nat) :
    RelM (TreeRel R) (CellTree.init env vs faces fill nBuckets cellsPerLeaf sched)
      (CellTree.init env vs' faces fill nBuckets cellsPerLeaf sched) := by
  unfold CellTree.init
  split
  · exact rfl
  split
  · exact rfl
  refine (RelM.of_eq rfl).bind fun f f' hf => ?_
  subst hf
  rw [counterClockwise_rel hT hv]
  refine (RelM.of_eq rfl).bind fun rows rows' hrows => ?_
  subst hrows
  unfold CellTree.ofFaces
  simp only
  have hB := buildFaceBboxes_rel hR.toSimilarOrder hv rows
  match hb : buildFaceBboxes rows vs, buildFaceBboxes rows vs', hB with
  | .error e, .error _, h => exact h
  | .ok coords, .ok coords', hc =>
    have hc : List.Forall₂ (BoxRel R) coords coords' := hc
    simp only [ok_bind]
    have hlen : coords.length = rows.length := (mapM_eq_ok hb).1
    rw [← hlen]
    have hnum : NumInput env coords := by
      refine ⟨fun b hbm d => ?_, hmm.1, hmm.2⟩
      obtain ⟨i, hi, rfl⟩ := List.getElem_of_mem hbm
      have := (hc.get hi (hc.length_eq ▸ hi)) d
      exact ⟨(NumOrd.num_of_lt (hR.max this.1).1).1, (NumOrd.num_of_lt (hR.max this.2).1).1⟩
    refine (initTree_rel hR hc hnum _).bind ?_
    rintro ⟨nodes, idx⟩ ⟨nodes', idx'⟩ ⟨h1, h2⟩
    simp only at h1 h2 ⊢
    subst h2
    refine (bboxTree_rel hR.toSimilarOrder hc).bind fun bb bb' hbb => ?_
    exact ⟨rfl, hv, h1, rfl, hc, hbb, rfl, rfl, rfl⟩

theorem forall₂_mono {α β : Type} {S T : α → β → Prop} {l : List α} {m : List β} (h : List.Forall₂ S l m) (k : ∀ a b, S a b → T a b) :
    List.Forall₂ T l m := h.imp fun {a b} => k a b

variable {t t' : CellTree F}

/-- The relation of the coordinates can be weakened. -/
theorem TreeRel.mono {S : Bool → F → F → Prop} (h : TreeRel R t t') (k : ∀ d x x', R d x x' → S d x x') : TreeRel S t t' := by
  have hb : ∀ b b' : Box F, BoxRel R b b' → BoxRel S b b' := fun b b' h d => ⟨k _ _ _ (h d).1, k _ _ _ (h d).2⟩
  exact ⟨h.elements, forall₂_mono h.vertices fun p p' h => ⟨k _ _ _ h.1, k _ _ _ h.2⟩,
    forall₂_mono h.nodes fun a b h => ⟨h.child, h.ptr, h.size, h.dim, h.bounds.imp id fun h => ⟨k _ _ _ h.1, k _ _ _ h.2⟩⟩,
    h.bbIndices, forall₂_mono h.bbCoords hb, hb _ _ h.bbox, h.cellsPerLeaf, h.nMaxVert, h.nBuckets⟩

/-! ## Points -/

theorem TreeRel.fuel (h : TreeRel R t t') : t.data.fuel = t'.data.fuel := by
  unfold Tree.fuel; rw [h.bbIndices]

theorem leafFind_rel (h : TreeRel R t t') (test : Nat → M Bool) (n i : Nat) : leafFind t.data test n i = leafFind t'.data test n i := by
  induction n generalizing i with
  | zero => rfl
  | succ n ih =>
    unfold leafFind
    rw [h.bbIndices]
    simp only [ih]

theorem PtRel.get {p p' : Pt F} (h : PtRel R p p') (d : Bool) : R d (p.get d) (p'.get d) := by
  cases d
  · exact h.1
  · exact h.2

theorem locateWith_rel (hR : SimilarOrder R) (h : TreeRel R t t') {p p' : Pt F} (hp : PtRel R p p') (test : Nat → M Bool) :
    locateWith t.data test p = locateWith t'.data test p' := by
  have : pointVisit t.data test p = pointVisit t'.data test p' := by
    funext k u
    unfold pointVisit
    refine ((rdI_rel h.nodes k).bind (T := Eq) fun nd nd' hn => RelM.of_eq ?_).eq
    rw [← hn.child, leafFind_rel h, ← hn.size, ← hn.ptr]
    split
    · rfl
    · rename_i hch
      obtain ⟨h1, h2⟩ := hn.bounds.resolve_left hch
      have hx := hp.get nd.dim
      congr 3
      unfold pointChildren
      simp only
      rw [← hn.dim, ← hn.child]
      simp only [ge_iff_le, decide_eq_decide.2 (hR.le hx h1), decide_eq_decide.2 (hR.le h2 hx)]
      by_cases hcl : nd.Lmax - p.get nd.dim < p.get nd.dim - nd.Rmin
      · rw [if_pos hcl, if_pos ((hR.closer hx h1 h2).1 hcl)]
      · rw [if_neg hcl, if_neg fun g => hcl ((hR.closer hx h1 h2).2 g)]
  unfold locateWith
  rw [this, h.fuel]

theorem pointLoop_rel {tol tol' : F} (hP : SimilarPoint R tol tol') {p p' : Pt F} (hp : PtRel R p p') {poly poly' : List (Pt F)}
    (hpoly : List.Forall₂ (PtRel R) poly poly') {v v' : Pt F} (hv : PtRel R v v') (c : Bool) :
    pointInPolygonOrOnEdgeLoop p tol v (toVector p v) poly c = pointInPolygonOrOnEdgeLoop p' tol' v' (toVector p' v') poly' c := by
  induction hpoly generalizing v v' c with
  | nil => rfl
  | cons h _ ih =>
    unfold pointInPolygonOrOnEdgeLoop
    rw [hP.eqv h hv, ih hv]
    simp only
    rw [hP.near hp hv h, hP.bounds hp hv h, hP.ray hp hv h]
    simp only [ih h]

theorem copyVertices_rel (hv : List.Forall₂ (PtRel R) vs vs') (face : List Int) :
    RelM (List.Forall₂ (PtRel R)) (copyVertices vs face) (copyVertices vs' face) := by
  unfold copyVertices
  simp only
  split
  · exact rfl
  · refine mapM_rel (S := Eq) (List.forall₂_same.2 fun _ _ => rfl) fun i i' hi => ?_
    subst hi
    exact rdI_rel hv i

theorem faceTest_rel {tol tol' : F} (hP : SimilarPoint R tol tol') (h : TreeRel R t t') {p p' : Pt F} (hp : PtRel R p p') (j : Nat) :
    faceTest t.data p tol j = faceTest t'.data p' tol' j := by
  unfold faceTest
  rw [h.elements]
  refine (RelM.bind (T := Eq) (RelM.of_eq rfl) fun f f' hf => ?_).eq
  subst hf
  refine (copyVertices_rel h.vertices f).bind fun poly poly' hpoly => ?_
  unfold pointInPolygonOrOnEdge
  refine (rdI_rel hpoly (-1)).bind fun v v' hv => RelM.of_eq ?_
  exact pointLoop_rel hP hp hpoly hv false

theorem locatePoints_rel {tol tol' : F} (hR : SimilarOrder R) (hP : SimilarPoint R tol tol') (h : TreeRel R t t')
    {points points' : List (Pt F)} (hp : List.Forall₂ (PtRel R) points points') (sched : List Nat) :
    t.locatePoints env points (some tol) sched = t'.locatePoints env points' (some tol') sched := by
  show Celltree.locatePoints points t.data tol sched = Celltree.locatePoints points' t'.data tol' sched
  unfold Celltree.locatePoints locatePoint
  rw [hp.length_eq]
  congr 1
  funext i
  refine ((rd_rel hp i).bind (T := Eq) fun q q' hq => RelM.of_eq ?_).eq
  rw [show faceTest t.data q tol = faceTest t'.data q' tol' from funext fun j => faceTest_rel hP h hq j]
  exact locateWith_rel hR h hq _

/-! ## Boxes -/

theorem boxesIntersect_rel (hR : SimilarOrder R) {a a' b b' : Box F} (ha : BoxRel R a a') (hb : BoxRel R b b') :
    boxesIntersect a b = boxesIntersect a' b' := by
  obtain ⟨h1, h2, h3, h4⟩ := boxRel_iff.1 ha
  obtain ⟨g1, g2, g3, g4⟩ := boxRel_iff.1 hb
  unfold boxesIntersect
  rw [decide_eq_decide.2 (hR.lt h1 g2), decide_eq_decide.2 (hR.lt g1 h2), decide_eq_decide.2 (hR.lt h3 g4),
    decide_eq_decide.2 (hR.lt g3 h4)]

theorem boxLeafLoop_rel (hR : SimilarOrder R) (h : TreeRel R t t') {box box' : Box F} (hb : BoxRel R box box') (index n i : Nat)
    (st : BoxSt) : boxLeafLoop t.data box index n i st = boxLeafLoop t'.data box' index n i st := by
  induction n generalizing i st with
  | zero => rfl
  | succ n ih =>
    unfold boxLeafLoop
    rw [h.bbIndices]
    refine (RelM.bind (T := Eq) (RelM.of_eq rfl) fun j j' hj => ?_).eq
    subst hj
    refine (rd_rel h.bbCoords j).bind fun c c' hc => RelM.of_eq ?_
    rw [boxesIntersect_rel hR hb hc]
    simp only [ih]

theorem locateBox_rel (hR : SimilarOrder R) (h : TreeRel R t t') {box box' : Box F} (hb : BoxRel R box box')
    (indices : List (Nat × Nat)) (size index : Nat) :
    locateBox box t.data indices size index = locateBox box' t'.data indices size index := by
  have : boxVisit t.data box index = boxVisit t'.data box' index := by
    funext k st
    unfold boxVisit
    refine ((rdI_rel h.nodes k).bind (T := Eq) fun nd nd' hn => RelM.of_eq ?_).eq
    rw [← hn.child, boxLeafLoop_rel hR h hb, ← hn.size, ← hn.ptr]
    split
    · rfl
    · rename_i hch
      obtain ⟨h1, h2⟩ := hn.bounds.resolve_left hch
      obtain ⟨g1, g2⟩ := hb nd.dim
      unfold pushChildren
      simp only
      rw [← hn.dim, ← hn.child]
      simp only [ge_iff_le, decide_eq_decide.2 (hR.le g1 h1), decide_eq_decide.2 (hR.le h2 g2)]
  unfold locateBox
  rw [this, h.fuel, boxesIntersect_rel hR hb h.bbox]

theorem boxRetry_rel (hR : SimilarOrder R) (h : TreeRel R t t') {box box' : Box F} (hb : BoxRel R box box') (index total fuel : Nat)
    (indices : List (Nat × Nat)) (size : Nat) :
    boxRetry box t.data index total fuel indices size = boxRetry box' t'.data index total fuel indices size := by
  induction fuel generalizing indices size with
  | zero => rfl
  | succ fuel ih =>
    unfold boxRetry
    simp only [locateBox_rel hR h hb, ih]

theorem boxHelperLoop_rel (hR : SimilarOrder R) (h : TreeRel R t t') (offset : Nat) {boxes boxes' : List (Box F)}
    (hb : List.Forall₂ (BoxRel R) boxes boxes') (k : Nat) (indices : List (Nat × Nat)) (total size : Nat) :
    boxHelperLoop t.data offset boxes k indices total size = boxHelperLoop t'.data offset boxes' k indices total size := by
  induction hb generalizing k indices total size with
  | nil => rfl
  | cons hx _ ih =>
    unfold boxHelperLoop
    simp only [boxRetry_rel hR h hx, h.bbIndices, ih]

theorem splitSizes_rel {α β : Type} {S : α → β → Prop} (ss : List Nat) {l : List α} {m : List β} (h : List.Forall₂ S l m) :
    List.Forall₂ (List.Forall₂ S) (splitSizes ss l) (splitSizes ss m) := by
  induction ss generalizing l m with
  | nil => exact .cons h .nil
  | cons s ss ih => exact .cons (forall₂_take h s) (ih (forall₂_drop h s))

theorem offsetsLoop_rel {α β : Type} {S : α → β → Prop} {l : List (List α)} {m : List (List β)}
    (h : List.Forall₂ (List.Forall₂ S) l m) (i : Nat) (offsets : List Nat) : offsetsLoop l i offsets = offsetsLoop m i offsets := by
  induction h generalizing i offsets with
  | nil => rfl
  | cons hx _ ih =>
    unfold offsetsLoop
    simp only [hx.length_eq, ih]

theorem forall₂_dropLast {α β : Type} {S : α → β → Prop} {l : List α} {m : List β} (h : List.Forall₂ S l m) :
    List.Forall₂ S l.dropLast m.dropLast := by
  rw [List.dropLast_eq_take, List.dropLast_eq_take, h.length_eq]
  exact forall₂_take h _

theorem locateBoxes_rel (hR : SimilarOrder R) (h : TreeRel R t t') {boxes boxes' : List (Box F)}
    (hb : List.Forall₂ (BoxRel R) boxes boxes') (nThreads : Nat) (sched : List Nat) :
    t.locateBoxes boxes nThreads sched = t'.locateBoxes boxes' nThreads sched := by
  show Celltree.locateBoxes boxes t.data nThreads sched = Celltree.locateBoxes boxes' t'.data nThreads sched
  unfold Celltree.locateBoxes
  have hsplit : RelM (List.Forall₂ (List.Forall₂ (BoxRel R))) (arraySplit boxes nThreads) (arraySplit boxes' nThreads) := by
    unfold arraySplit
    split
    · exact rfl
    · simp only
      rw [hb.length_eq]
      exact splitSizes_rel _ hb
  refine (hsplit.bind (T := Eq) fun chunks chunks' hch => RelM.of_eq ?_).eq
  have : chunkOffsets chunks nThreads = chunkOffsets chunks' nThreads := by
    unfold chunkOffsets
    exact offsetsLoop_rel (forall₂_dropLast hch) _ _
  rw [this]
  have hbody : ∀ (i : Nat) (offsets : List Nat), (do locateBoxesHelper (← rd chunks i) t.data (← rd offsets i)) =
      (do locateBoxesHelper (← rd chunks' i) t'.data (← rd offsets i)) := by
    intro i offsets
    refine ((rd_rel hch i).bind (T := Eq) fun q q' hq => ?_).eq
    refine (RelM.of_eq rfl).bind fun o o' ho => RelM.of_eq ?_
    subst ho
    unfold locateBoxesHelper
    rw [hq.length_eq]
    exact boxHelperLoop_rel hR h o hq _ _ _ _
  simp only [hbody]

end

end Celltree
