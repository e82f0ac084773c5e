import Verif.Spec.Stretch
import Verif.Proofs.SimilarQuery
import Verif.Proofs.Convex
import Verif.Spec.Exact
import Verif.Spec.Examples
import Verif.Props.Floats
import Verif.Props.Weights

/-!
# Scaled and translated meshes: C115
-/

set_option linter.unusedSectionVars false

namespace Celltree

section
variable {F : Type} [Add F] [Sub F] [Mul F] [Div F] [Zero F] [One F] [Neg F] [IntCast F]
  [LT F] [LE F] [BEq F] [DecidableLT F] [DecidableLE F] {R : Bool → F → F → Prop} {f : Bool → F → F}

theorem forall₂_map_of {α β : Type} {g : α → β} {l : List α} {m : List β} (h : List.Forall₂ (fun a b => b = g a) l m) :
    m = l.map g := by
  induction h with
  | nil => rfl
  | cons h _ ih => rw [List.map_cons, h, ih]

theorem TreeRel.sameShape {t t' : CellTree F} (h : TreeRel R t t') (hf : ∀ d x x', R d x x' → x' = f d x) : SameShape f t t' := by
  have hb : ∀ b b' : Box F, BoxRel R b b' → b' = mapBox f b := by
    intro b b' h
    obtain ⟨h1, h2, h3, h4⟩ := boxRel_iff.1 h
    obtain ⟨a1, a2, a3, a4⟩ := b'
    have e1 := hf _ _ _ h1
    have e2 := hf _ _ _ h2
    have e3 := hf _ _ _ h3
    have e4 := hf _ _ _ h4
    simp only at e1 e2 e3 e4
    rw [e1, e2, e3, e4]
    rfl
  refine ⟨h.elements.symm, forall₂_map_of (forall₂_mono h.vertices fun p p' hp => ?_), forall₂_mono h.nodes fun a b hn => ?_,
    h.bbIndices.symm, forall₂_map_of (forall₂_mono h.bbCoords hb), hb _ _ h.bbox⟩
  · obtain ⟨x, y⟩ := p'
    have e1 := hf _ _ _ hp.1
    have e2 := hf _ _ _ hp.2
    simp only at e1 e2
    rw [e1, e2]
    rfl
  · exact ⟨hn.child.symm, hn.ptr.symm, hn.size.symm, hn.dim.symm, fun hc =>
      ⟨hf _ _ _ (hn.bounds.resolve_left hc).1, hf _ _ _ (hn.bounds.resolve_left hc).2⟩⟩

/-- The graph of the nodes is the same. -/
theorem SameShape.toDictOfLists {t t' : CellTree F} (h : SameShape f t t') :
    Celltree.toDictOfLists t'.data.nodes = Celltree.toDictOfLists t.data.nodes := by
  have key : ∀ (l l' : List (Node F)) (k : Nat), List.Forall₂ (SameNode f) l l' →
      (l'.zipIdx k).map (fun (node, k) => if node.child = -1 then (k, []) else (k, [node.child, node.child + 1])) =
      (l.zipIdx k).map (fun (node, k) => if node.child = -1 then (k, []) else (k, [node.child, node.child + 1])) := by
    intro l l' k hl
    induction hl generalizing k with
    | nil => rfl
    | cons hx _ ih => simp only [List.zipIdx_cons, List.map_cons, ih, hx.child]
  exact key _ _ 0 h.nodes

end

/-! ## Exact arithmetic -/

section
variable {K : Type} [Field K] [LinearOrder K] [IsStrictOrderedRing K] {env : Env K} {kx ky x0 y0 : K}

/-- The relation between coordinates: the second is the first, stretched. -/
def StretchRel (kx ky x0 y0 : K) (d : Bool) (x x' : K) : Prop := x' = stretch kx ky x0 y0 d x

/-- The same, for coordinates in the range of the floats. -/
def StretchIn (env : Env K) (kx ky x0 y0 : K) (d : Bool) (x x' : K) : Prop :=
  x' = stretch kx ky x0 y0 d x ∧ (env.floatMin < x ∧ x < env.floatMax) ∧ env.floatMin < x' ∧ x' < env.floatMax

theorem stretch_factor (hkx : 0 < kx) (hky : 0 < ky) (d : Bool) : ∃ c o : K, 0 < c ∧ ∀ x, stretch kx ky x0 y0 d x = c * x + o := by
  cases d
  · exact ⟨kx, x0, hkx, fun _ => rfl⟩
  · exact ⟨ky, y0, hky, fun _ => rfl⟩

theorem stretch_order (hkx : 0 < kx) (hky : 0 < ky) : SimilarOrder (StretchRel kx ky x0 y0) := by
  constructor
  · rintro d x _ y _ rfl rfl
    obtain ⟨c, o, hc, e⟩ := stretch_factor (x0 := x0) (y0 := y0) hkx hky d
    rw [e, e, add_lt_add_iff_right, mul_lt_mul_iff_right₀ hc]
  · rintro d x _ y _ rfl rfl
    obtain ⟨c, o, hc, e⟩ := stretch_factor (x0 := x0) (y0 := y0) hkx hky d
    rw [e, e, add_le_add_iff_right, mul_le_mul_iff_right₀ hc]
  · rintro d x _ l _ r _ rfl rfl rfl
    obtain ⟨c, o, hc, e⟩ := stretch_factor (x0 := x0) (y0 := y0) hkx hky d
    rw [e, e, e, show c * l + o - (c * x + o) = c * (l - x) by ring, show c * x + o - (c * r + o) = c * (x - r) by ring,
      mul_lt_mul_iff_right₀ hc]

theorem beq_zero_mul {c x : K} (hc : c ≠ 0) : (c * x == 0) = (x == 0) := by
  rw [Bool.eq_iff_iff, beq_iff_eq, beq_iff_eq, mul_eq_zero]
  simp [hc]

theorem stretch_similar (hkx : 0 < kx) (hky : 0 < ky) (n : Nat) : Similar (StretchIn env kx ky x0 y0) env n := by
  have ho := stretch_order (x0 := x0) (y0 := y0) hkx hky
  refine ⟨⟨fun h1 h2 => ho.lt h1.1 h2.1, fun h1 h2 => ho.le h1.1 h2.1, fun h1 h2 h3 => ho.closer h1.1 h2.1 h3.1⟩,
    fun h => ⟨h.2.1.2, h.2.2.2⟩, fun h => ⟨h.2.1.1, h.2.2.1⟩, ?_, ?_, ?_, ?_⟩
  · rintro d lo _ hi _ a _ b _ ⟨rfl, -⟩ ⟨rfl, -⟩ ⟨rfl, -⟩ ⟨rfl, -⟩ i -
    obtain ⟨c, o, hc, e⟩ := stretch_factor (x0 := x0) (y0 := y0) hkx hky d
    rw [e, e, e, e, show c * lo + o + half * (c * hi + o - (c * lo + o)) = c * (lo + half * (hi - lo)) + o by ring,
      show (((i : Nat) : Int) : K) * ((c * b + o - (c * a + o)) / ((n : Int) : K)) + (c * a + o) =
        c * (((i : Nat) : Int) * ((b - a) / ((n : Int) : K)) + a) + o by ring, add_lt_add_iff_right, mul_lt_mul_iff_right₀ hc]
  · rintro d lo _ hi _ a _ b _ ⟨rfl, -⟩ ⟨rfl, -⟩ ⟨rfl, -⟩ ⟨rfl, -⟩ i -
    obtain ⟨c, o, hc, e⟩ := stretch_factor (x0 := x0) (y0 := y0) hkx hky d
    rw [e, e, e, e, show c * lo + o + half * (c * hi + o - (c * lo + o)) = c * (lo + half * (hi - lo)) + o by ring,
      show (((i : Nat) : Int) : K) * ((c * b + o - (c * a + o)) / ((n : Int) : K)) + (c * a + o) =
        c * (((i : Nat) : Int) * ((b - a) / ((n : Int) : K)) + a) + o by ring, add_le_add_iff_right, mul_le_mul_iff_right₀ hc]
  · rintro d a _ b _ ⟨rfl, -⟩ ⟨rfl, -⟩
    obtain ⟨c, o, hc, e⟩ := stretch_factor (x0 := x0) (y0 := y0) hkx hky d
    rw [e, e, show (c * b + o - (c * a + o)) / ((n : Int) : K) = c * ((b - a) / ((n : Int) : K)) by ring, beq_zero_mul hc.ne']
  · rintro d a _ b _ x _ y _ ⟨rfl, -⟩ ⟨rfl, -⟩ ⟨rfl, -⟩ ⟨rfl, -⟩ -
    obtain ⟨c, o, hc, e⟩ := stretch_factor (x0 := x0) (y0 := y0) hkx hky d
    rw [e, e, e, e, show (c * b + o - (c * a + o)) / ((n : Int) : K) = c * ((b - a) / ((n : Int) : K)) by ring,
      show c * y + o - (c * x + o) = c * (y - x) by ring, mul_div_mul_left _ _ hc.ne']

theorem stretch_turn (hkx : 0 < kx) (hky : 0 < ky) : SimilarTurn (StretchRel kx ky x0 y0) := by
  have key : ∀ {a a' b b' c c' : Pt K}, PtRel (StretchRel kx ky x0 y0) a a' → PtRel (StretchRel kx ky x0 y0) b b' →
      PtRel (StretchRel kx ky x0 y0) c c' →
      cross (toVector a' b') (toVector a' c') = kx * ky * cross (toVector a b) (toVector a c) := by
    rintro a a' b b' c c' ⟨a1, a2⟩ ⟨b1, b2⟩ ⟨c1, c2⟩
    unfold cross toVector
    simp only
    rw [a1, a2, b1, b2, c1, c2]
    simp only [stretch, if_true, Bool.false_eq_true, if_false]
    ring
  have hk : 0 < kx * ky := mul_pos hkx hky
  constructor
  · intro a a' b b' c c' ha hb hc
    rw [key ha hb hc, beq_zero_mul hk.ne']
  · intro a a' b b' c c' ha hb hc
    rw [key ha hb hc]
    constructor
    · exact fun h => mul_neg_of_pos_of_neg hk h
    · exact fun h => (pos_iff_neg_of_mul_neg h).1 hk

theorem stretch_point {k tol : K} (hk : 0 < k) : SimilarPoint (StretchRel k k x0 y0) tol (k * tol) := by
  have ho := stretch_order (x0 := x0) (y0 := y0) hk hk
  constructor
  · rintro a a' b b' ⟨a1, a2⟩ ⟨b1, b2⟩
    unfold Pt.eqv
    rw [a1, a2, b1, b2]
    simp only [stretch, if_true, Bool.false_eq_true, if_false]
    have : ∀ x y o : K, (k * x + o == k * y + o) = (x == y) := by
      intro x y o
      rw [Bool.eq_iff_iff, beq_iff_eq, beq_iff_eq, add_left_inj, mul_right_inj' hk.ne']
    rw [this, this]
  · rintro p p' a a' b b' ⟨p1, p2⟩ ⟨a1, a2⟩ ⟨b1, b2⟩
    unfold withinPerpendicularDistance
    rw [decide_eq_decide]
    unfold cross toVector lengthSquared
    simp only
    rw [p1, p2, a1, a2, b1, b2]
    simp only [stretch, if_true, Bool.false_eq_true, if_false]
    rw [← mul_lt_mul_iff_right₀ (show 0 < k ^ 4 by positivity)]
    apply iff_of_eq
    congr 1 <;> ring
  · rintro p p' a a' b b' ⟨p1, p2⟩ ⟨a1, a2⟩ ⟨b1, b2⟩
    unfold inBounds
    simp only
    rw [p1, p2, a1, a2, b1, b2]
    simp only [stretch, if_true, Bool.false_eq_true, if_false]
    have hmin : ∀ x y o : K, fmin (k * x + o) (k * y + o) = k * fmin x y + o := by
      intro x y o
      unfold fmin
      simp only [add_lt_add_iff_right, mul_lt_mul_iff_right₀ hk]
      split <;> rfl
    have hmax : ∀ x y o : K, fmax (k * x + o) (k * y + o) = k * fmax x y + o := by
      intro x y o
      unfold fmax
      simp only [add_lt_add_iff_right, mul_lt_mul_iff_right₀ hk]
      split <;> rfl
    have habs : ∀ x y o : K, fabs (k * x + o - (k * y + o)) = k * fabs (x - y) := by
      intro x y o
      unfold fabs
      have e : k * x + o - (k * y + o) = k * (x - y) := by ring
      rw [e]
      by_cases h : x - y < 0
      · rw [if_pos h, if_pos (mul_neg_of_pos_of_neg hk h)]; ring
      · rw [if_neg h, if_neg (not_lt.2 (mul_nonneg hk.le (not_lt.1 h)))]
    simp only [hmin, hmax, habs, ge_iff_le, add_le_add_iff_right, mul_le_mul_iff_right₀ hk]
  · rintro p p' a a' b b' ⟨p1, p2⟩ ⟨a1, a2⟩ ⟨b1, b2⟩
    unfold rayCrosses fdiv
    rw [p1, p2, a1, a2, b1, b2]
    simp only [stretch, if_true, Bool.false_eq_true, if_false, gt_iff_lt, add_lt_add_iff_right, mul_lt_mul_iff_right₀ hk]
    have e1 : k * b.y + y0 - (k * a.y + y0) = k * (b.y - a.y) := by ring
    have e2 : (k * b.x + x0 - (k * a.x + x0)) * (k * p.y + y0 - (k * a.y + y0)) = k * (k * ((b.x - a.x) * (p.y - a.y))) := by ring
    rw [e1, e2, beq_zero_mul hk.ne', mul_div_mul_left _ _ hk.ne']
    by_cases h0 : (b.y - a.y == 0) = true
    · simp only [if_pos h0]
      rfl
    · simp only [if_neg h0, ok_bind]
      rw [show k * ((b.x - a.x) * (p.y - a.y)) / (b.y - a.y) + (k * a.x + x0) =
        k * ((b.x - a.x) * (p.y - a.y) / (b.y - a.y) + a.x) + x0 by ring]
      simp only [add_lt_add_iff_right, mul_lt_mul_iff_right₀ hk]

theorem forall₂_mapPt {R : Bool → K → K → Prop} {f : Bool → K → K} {l : List (Pt K)} (h : ∀ p ∈ l, PtRel R p (mapPt f p)) :
    List.Forall₂ (PtRel R) l (l.map (mapPt f)) := by
  rw [List.forall₂_map_right_iff, List.forall₂_same]
  exact h

/-- Everything about the construction at once. -/
theorem stretch_init {vertices : List (Pt K)} {faces : IntArr} {fill nBuckets cellsPerLeaf : Int} {sched : List Nat} (hkx : 0 < kx)
    (hky : 0 < ky) (hin : InRange env vertices) (hin' : InRange env (vertices.map (mapPt (stretch kx ky x0 y0)))) :
    RelM (TreeRel (StretchIn env kx ky x0 y0)) (CellTree.init env vertices faces fill nBuckets cellsPerLeaf sched)
      (CellTree.init env (vertices.map (mapPt (stretch kx ky x0 y0))) faces fill nBuckets cellsPerLeaf sched) := by
  have hT := stretch_turn (x0 := x0) (y0 := y0) hkx hky
  have hw : ∀ {p p' : Pt K}, PtRel (StretchIn env kx ky x0 y0) p p' → PtRel (StretchRel kx ky x0 y0) p p' := fun h => ⟨h.1.1, h.2.1⟩
  refine init_rel (stretch_similar hkx hky _) ⟨fun a b c => hT.zero (hw a) (hw b) (hw c), fun a b c => hT.neg (hw a) (hw b) (hw c)⟩
    (forall₂_mapPt fun p hp => ?_) ⟨trivial, trivial⟩ sched
  have h1 := hin p hp
  have h2 := hin' _ (List.mem_map_of_mem hp)
  exact ⟨⟨rfl, h1.1, h2.1⟩, rfl, h1.2, h2.2⟩

variable {vertices : List (Pt K)} {faces : IntArr} {fill nBuckets cellsPerLeaf : Int} {sched : List Nat} {t t' : CellTree K}

/-- **C115**, construction (exact arithmetic): the tree of a mesh that is stretched along the axes and translated is the tree of the
mesh in the new coordinates: the same nodes with the same cells in the same order. If one of the two constructions fails, the other
fails in the same way. -/
theorem C115_same_tree (hkx : 0 < kx) (hky : 0 < ky) (hin : InRange env vertices)
    (hin' : InRange env (vertices.map (mapPt (stretch kx ky x0 y0)))) :
    (∀ t, CellTree.init env vertices faces fill nBuckets cellsPerLeaf sched = .ok t →
      ∃ t', CellTree.init env (vertices.map (mapPt (stretch kx ky x0 y0))) faces fill nBuckets cellsPerLeaf sched = .ok t' ∧
        SameShape (stretch kx ky x0 y0) t t' ∧ Celltree.toDictOfLists t'.data.nodes = Celltree.toDictOfLists t.data.nodes) ∧
    ∀ e, CellTree.init env vertices faces fill nBuckets cellsPerLeaf sched = .error e ↔
      CellTree.init env (vertices.map (mapPt (stretch kx ky x0 y0))) faces fill nBuckets cellsPerLeaf sched = .error e := by
  have h := stretch_init (faces := faces) (fill := fill) (nBuckets := nBuckets) (cellsPerLeaf := cellsPerLeaf) (sched := sched)
    hkx hky hin hin'
  constructor
  · intro t ht
    obtain ⟨t', h1, h2⟩ := h.ok_left ht
    have h3 := h2.sameShape fun d x x' h => h.1
    exact ⟨t', h1, h3, h3.toDictOfLists⟩
  · intro e
    exact h.error_iff e

/-- **C115**, `locate_boxes` (exact arithmetic): mesh and boxes are stretched along the axes and translated. The result is the same,
in the same order. -/
theorem C115_locate_boxes (hkx : 0 < kx) (hky : 0 < ky) (hin : InRange env vertices)
    (hin' : InRange env (vertices.map (mapPt (stretch kx ky x0 y0))))
    (ht : CellTree.init env vertices faces fill nBuckets cellsPerLeaf sched = .ok t)
    (ht' : CellTree.init env (vertices.map (mapPt (stretch kx ky x0 y0))) faces fill nBuckets cellsPerLeaf sched = .ok t')
    (boxes : List (Box K)) (nThreads : Nat) (sched1 : List Nat) :
    t'.locateBoxes (boxes.map (mapBox (stretch kx ky x0 y0))) nThreads sched1 = t.locateBoxes boxes nThreads sched1 := by
  obtain ⟨t'', h1, h2⟩ := (stretch_init hkx hky hin hin').ok_left ht
  rw [ht'] at h1
  cases h1
  refine (locateBoxes_rel (stretch_order hkx hky) (h2.mono fun _ _ _ h => h.1) ?_ nThreads sched1).symm
  rw [List.forall₂_map_right_iff, List.forall₂_same]
  exact fun b _ => boxRel_iff.2 ⟨rfl, rfl, rfl, rfl⟩

/-- **C115**, `locate_points` (exact arithmetic): mesh, points and tolerance are scaled by the same factor, and mesh and points are
translated. Every point is located in the same face, also if it is on a side or a vertex of several faces. -/
theorem C115_locate_points {k tol : K} (hk : 0 < k) (hin : InRange env vertices)
    (hin' : InRange env (vertices.map (mapPt (stretch k k x0 y0))))
    (ht : CellTree.init env vertices faces fill nBuckets cellsPerLeaf sched = .ok t)
    (ht' : CellTree.init env (vertices.map (mapPt (stretch k k x0 y0))) faces fill nBuckets cellsPerLeaf sched = .ok t')
    (points : List (Pt K)) (sched1 : List Nat) :
    t'.locatePoints env (points.map (mapPt (stretch k k x0 y0))) (some (k * tol)) sched1 =
      t.locatePoints env points (some tol) sched1 := by
  obtain ⟨t'', h1, h2⟩ := (stretch_init hk hk hin hin').ok_left ht
  rw [ht'] at h1
  cases h1
  exact (locatePoints_rel (stretch_order hk hk) (stretch_point hk) (h2.mono fun _ _ _ h => h.1)
    (forall₂_mapPt (f := stretch k k x0 y0) fun p _ => ⟨rfl, rfl⟩) sched1).symm

/-- The diagonal of a box. -/
def diagonal (env : Env K) (b : Box K) : K := env.sqrt ((b.xmax - b.xmin) * (b.xmax - b.xmin) + (b.ymax - b.ymin) * (b.ymax - b.ymin))

theorem foldl_fmax_ge (l : List K) (x : K) : x ≤ l.foldl fmax x ∧ ∀ y ∈ l, y ≤ l.foldl fmax x := by
  induction l generalizing x with
  | nil => exact ⟨le_rfl, nofun⟩
  | cons a l ih =>
    obtain ⟨h1, h2⟩ := ih (fmax x a)
    rw [fmax_eq] at h1 h2
    rw [List.foldl_cons, fmax_eq]
    refine ⟨(le_max_left _ _).trans h1, fun y hy => ?_⟩
    rcases List.mem_cons.1 hy with rfl | hy
    · exact (le_max_right _ _).trans h1
    · exact h2 y hy

theorem foldl_fmax_mul {k : K} (hk : 0 < k) (l : List K) (x : K) :
    (l.map (k * ·)).foldl fmax (k * x) = k * l.foldl fmax x := by
  induction l generalizing x with
  | nil => rfl
  | cons a l ih =>
    rw [List.map_cons, List.foldl_cons, List.foldl_cons, ← ih, fmax_eq, fmax_eq, mul_max_of_nonneg _ _ hk.le]

/-- The default tolerance is scaled with the boxes. -/
theorem stretch_boxes_tolerance {k tol : K} (hk : 0 < k) (hd : t.bbDistances = t.data.bbCoords.map (bboxDistance env))
    (hd' : t'.bbDistances = t'.data.bbCoords.map (bboxDistance env))
    (hb : t'.data.bbCoords = t.data.bbCoords.map (mapBox (stretch k k x0 y0)))
    (hsqrt : ∀ x, env.sqrt (k * k * x) = k * env.sqrt x) (hf : 0 ≤ env.tolFactor)
    (hbig : k = 1 ∨ ∃ b ∈ t.data.bbCoords, env.minTol ≤ env.tolFactor * diagonal env b ∧
      env.minTol ≤ k * (env.tolFactor * diagonal env b))
    (htol : t.tolerance env none = .ok tol) : t'.tolerance env none = .ok (k * tol) := by
  unfold CellTree.tolerance defaultTolerance at htol ⊢
  simp only at htol ⊢
  rw [hd, List.map_map] at htol
  rw [hd', List.map_map, hb, List.map_map]
  have e : ∀ b : Box K, ((fun d : K × K × K => d.2.2) ∘ bboxDistance env) (mapBox (stretch k k x0 y0) b) = k * diagonal env b := by
    intro b
    show env.sqrt _ = _
    unfold diagonal
    rw [← hsqrt]
    congr 1
    simp only [mapBox, stretch, if_true, Bool.false_eq_true, if_false]
    ring
  have e' : t.data.bbCoords.map (((fun d : K × K × K => d.2.2) ∘ bboxDistance env) ∘ mapBox (stretch k k x0 y0)) =
      (t.data.bbCoords.map (diagonal env)).map (k * ·) := by
    rw [List.map_map]
    exact List.map_congr_left fun b _ => e b
  rw [e']
  have e'' : t.data.bbCoords.map ((fun d : K × K × K => d.2.2) ∘ bboxDistance env) = t.data.bbCoords.map (diagonal env) := rfl
  rw [e''] at htol
  have hmem : k = 1 ∨ ∃ d ∈ t.data.bbCoords.map (diagonal env), env.minTol ≤ env.tolFactor * d ∧ env.minTol ≤ k * (env.tolFactor * d) := by
    rcases hbig with h | ⟨b, h1, h2⟩
    · exact Or.inl h
    · exact Or.inr ⟨_, List.mem_map_of_mem h1, h2⟩
  clear hbig
  generalize t.data.bbCoords.map (diagonal env) = ds at htol hmem ⊢
  match ds, htol, hmem with
  | [], htol, _ => cases htol
  | d :: ds, htol, hmem =>
    have h3 := Except.ok.inj (show (Except.ok (fmax env.minTol (env.tolFactor * ds.foldl fmax d)) : M K) = .ok tol from htol)
    show (Except.ok (fmax env.minTol (env.tolFactor * (ds.map (k * ·)).foldl fmax (k * d))) : M K) = _
    rw [foldl_fmax_mul hk, ← h3]
    rcases hmem with rfl | ⟨x, hx, m1, m2⟩
    · rw [one_mul, one_mul]
    · have hle : x ≤ ds.foldl fmax d := by
        rcases List.mem_cons.1 hx with rfl | hx
        · exact (foldl_fmax_ge ds x).1
        · exact (foldl_fmax_ge ds d).2 x hx
      have hle' : env.tolFactor * x ≤ env.tolFactor * ds.foldl fmax d := mul_le_mul_of_nonneg_left hle hf
      rw [fmax_eq, fmax_eq, max_eq_right (m1.trans hle'), max_eq_right]
      · rw [mul_left_comm]
      · rw [mul_left_comm]
        exact m2.trans (mul_le_mul_of_nonneg_left hle' hk.le)

/-- The default tolerance is scaled with the coordinates. -/
theorem stretch_tolerance {k tol : K} (hk : 0 < k) (hin : InRange env vertices)
    (hin' : InRange env (vertices.map (mapPt (stretch k k x0 y0)))) (hm : GoodMesh env vertices faces fill)
    (hsched : sched.Perm (List.range faces.rows.length))
    (hsqrt : ∀ x, env.sqrt (k * k * x) = k * env.sqrt x) (hf : 0 ≤ env.tolFactor)
    (hbig : k = 1 ∨ ∃ b ∈ t.data.bbCoords, env.minTol ≤ env.tolFactor * diagonal env b ∧
      env.minTol ≤ k * (env.tolFactor * diagonal env b))
    (ht : CellTree.init env vertices faces fill nBuckets cellsPerLeaf sched = .ok t)
    (ht' : CellTree.init env (vertices.map (mapPt (stretch k k x0 y0))) faces fill nBuckets cellsPerLeaf sched = .ok t')
    (htol : t.tolerance env none = .ok tol) : t'.tolerance env none = .ok (k * tol) := by
  have hm' : GoodMesh env (vertices.map (mapPt (stretch k k x0 y0))) faces fill :=
    ⟨by rw [List.length_map]; exact hm.valid, fun _ _ _ _ => ⟨trivial, trivial⟩, trivial, trivial⟩
  obtain ⟨_, hne, bt, hc⟩ := Makes.constructed' ⟨sched, hsched, ht⟩ hm
  obtain ⟨_, _, bt', hc'⟩ := Makes.constructed' ⟨sched, hsched, ht'⟩ hm'
  obtain ⟨t'', h1, h2⟩ := (stretch_init hk hk hin hin').ok_left ht
  rw [ht'] at h1
  cases h1
  exact stretch_boxes_tolerance hk hc.distances hc'.distances (h2.sameShape fun d x x' h => h.1).boxes hsqrt hf hbig htol

/-- **C115**, default tolerance (exact arithmetic): `locate_points` without a tolerance gives the same result for a translated mesh.
It gives the same result for a scaled one if the lower limit of the tolerance matters for none of the two meshes. -/
theorem C115_locate_points_default {k : K} (hk : 0 < k) (hin : InRange env vertices)
    (hin' : InRange env (vertices.map (mapPt (stretch k k x0 y0)))) (hm : GoodMesh env vertices faces fill)
    (hsched : sched.Perm (List.range faces.rows.length))
    (hsqrt : ∀ x, env.sqrt (k * k * x) = k * env.sqrt x) (hf : 0 ≤ env.tolFactor)
    (hbig : k = 1 ∨ ∃ b ∈ t.data.bbCoords, env.minTol ≤ env.tolFactor * diagonal env b ∧
      env.minTol ≤ k * (env.tolFactor * diagonal env b))
    (ht : CellTree.init env vertices faces fill nBuckets cellsPerLeaf sched = .ok t)
    (ht' : CellTree.init env (vertices.map (mapPt (stretch k k x0 y0))) faces fill nBuckets cellsPerLeaf sched = .ok t')
    (points : List (Pt K)) (sched1 : List Nat) :
    t'.locatePoints env (points.map (mapPt (stretch k k x0 y0))) none sched1 = t.locatePoints env points none sched1 := by
  obtain ⟨tol, htol⟩ := Makes.tolerance_ok hm ⟨sched, hsched, ht⟩ none
  have htol' := stretch_tolerance hk hin hin' hm hsched hsqrt hf hbig ht ht' htol
  rw [locatePoints_tol htol, locatePoints_tol htol']
  exact C115_locate_points hk hin hin' ht ht' points sched1

end

instance {vertices : List (Pt ℚ)} {env : Env ℚ} : Decidable (InRange env vertices) :=
  inferInstanceAs (Decidable (∀ p ∈ vertices, (env.floatMin < p.x ∧ p.x < env.floatMax) ∧ env.floatMin < p.y ∧ p.y < env.floatMax))

namespace Ex

/-- Other units and another origin. -/
def units : Bool → ℚ → ℚ := stretch (1 / 3) 7 (-100) 50

/-- The same units for both axes. -/
def meters : Bool → ℚ → ℚ := stretch (1 / 3) (1 / 3) (-100) 50

end Ex

/-- The hypotheses. -/
example : InRange Ex.qEnv Ex.qVerts ∧ InRange Ex.qEnv (Ex.qVerts.map (mapPt Ex.units)) ∧
    InRange Ex.qEnv (Ex.qVerts.map (mapPt Ex.meters)) := by decide +kernel

set_option synthInstance.maxSize 1000 in
/-- A tree with seven nodes, in both coordinates. The faces are found in the same order. -/
example : ∃ t t', CellTree.init Ex.qEnv Ex.qVerts Ex.faces (-999) 4 1 [2, 0, 3, 1] = .ok t ∧
    CellTree.init Ex.qEnv (Ex.qVerts.map (mapPt Ex.units)) Ex.faces (-999) 4 1 [2, 0, 3, 1] = .ok t' ∧ t.data.nodes.length = 7 ∧
    t'.locateBoxes ([⟨1, 3, 1, 3⟩, ⟨3, 4, 0, 1⟩].map (mapBox Ex.units)) 2 [1, 0] = t.locateBoxes [⟨1, 3, 1, 3⟩, ⟨3, 4, 0, 1⟩] 2 [1, 0] ∧
    t.locateBoxes [⟨1, 3, 1, 3⟩, ⟨3, 4, 0, 1⟩] 2 [1, 0] = .ok ([0, 0, 0, 0, 1, 1], [2, 1, 3, 0, 2, 1]) := by
  obtain ⟨t, h1, h2⟩ := bind_eq_ok.1 (show (CellTree.init Ex.qEnv Ex.qVerts Ex.faces (-999) 4 1 [2, 0, 3, 1] >>= fun t =>
    t.locateBoxes [⟨1, 3, 1, 3⟩, ⟨3, 4, 0, 1⟩] 2 [1, 0] >>= fun r => .ok (r, t.data.nodes.length)) =
      .ok (([0, 0, 0, 0, 1, 1], [2, 1, 3, 0, 2, 1]), 7) by decide +kernel)
  obtain ⟨t', h1', -⟩ := (C115_same_tree (kx := 1 / 3) (ky := 7) (x0 := -100) (y0 := 50) (by norm_num) (by norm_num)
    (show InRange Ex.qEnv Ex.qVerts by decide +kernel)
    (show InRange Ex.qEnv (Ex.qVerts.map (mapPt Ex.units)) by decide +kernel)).1 t h1
  obtain ⟨r, h3, h4⟩ := bind_eq_ok.1 h2
  obtain ⟨rfl, h5⟩ := Prod.mk.inj (Except.ok.inj h4)
  exact ⟨t, t', h1, h1', h5, C115_locate_boxes (by norm_num) (by norm_num) (by decide +kernel)
    (show InRange Ex.qEnv (Ex.qVerts.map (mapPt Ex.units)) by decide +kernel) h1 h1' _ 2 [1, 0], h3⟩

set_option synthInstance.maxSize 1000 in
/-- The point `(2, 1)` is on the side of two faces, and `(2, 2)` is a vertex of all four. -/
example : ∃ t t', CellTree.init Ex.qEnv Ex.qVerts Ex.faces (-999) 4 1 [2, 0, 3, 1] = .ok t ∧
    CellTree.init Ex.qEnv (Ex.qVerts.map (mapPt Ex.meters)) Ex.faces (-999) 4 1 [2, 0, 3, 1] = .ok t' ∧
    t'.locatePoints Ex.qEnv ([⟨2, 1⟩, ⟨2, 2⟩, ⟨1, 1⟩, ⟨9, 9⟩].map (mapPt Ex.meters)) (some (1 / 3 * (1 / 1000))) [3, 1, 0, 2] =
      .ok [0, 0, 0, -1] := by
  obtain ⟨t, h1, h2⟩ := bind_eq_ok.1 (show (CellTree.init Ex.qEnv Ex.qVerts Ex.faces (-999) 4 1 [2, 0, 3, 1] >>= fun t =>
    t.locatePoints Ex.qEnv [⟨2, 1⟩, ⟨2, 2⟩, ⟨1, 1⟩, ⟨9, 9⟩] (some (1 / 1000)) [3, 1, 0, 2]) = .ok [0, 0, 0, -1] by decide +kernel)
  obtain ⟨t', h1', -⟩ := (C115_same_tree (kx := 1 / 3) (ky := 1 / 3) (x0 := -100) (y0 := 50) (by norm_num) (by norm_num)
    (show InRange Ex.qEnv Ex.qVerts by decide +kernel)
    (show InRange Ex.qEnv (Ex.qVerts.map (mapPt Ex.meters)) by decide +kernel)).1 t h1
  refine ⟨t, t', h1, h1', ?_⟩
  rw [← h2]
  exact C115_locate_points (by norm_num) (by decide +kernel)
    (show InRange Ex.qEnv (Ex.qVerts.map (mapPt Ex.meters)) by decide +kernel) h1 h1' _ _

/-- The root of the exact constants. -/
example (k : ℝ) (hk : 0 < k) (x : ℝ) : Ex.realEnv.sqrt (k * k * x) = k * Ex.realEnv.sqrt x := by
  show √(k * k * x) = k * √x
  rw [Real.sqrt_mul (mul_self_nonneg k), Real.sqrt_mul_self hk.le]

end Celltree
