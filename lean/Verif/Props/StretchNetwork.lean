import Verif.Proofs.StretchNetwork
import Verif.Props.StretchWeights
import Verif.Props.EdgeTree

/-!
# C119: networks in other units, with another origin

`EdgeCellTree2d` with coordinates that are multiplied by one positive factor and translated.
-/

set_option linter.unusedSectionVars false

namespace Celltree

section
variable {K : Type} [Field K] [LinearOrder K] [IsStrictOrderedRing K] {env : Env K} {k x0 y0 m m' : K} {vertices : List (Pt K)}
  {edges : IntArr} {nBuckets cellsPerLeaf : Int} {t t' : CellTree K}

/-- **C119**, construction (exact arithmetic): the tree of a network in other units, with another origin, is the tree of the network in
the new coordinates: the same nodes with the same edges in the same order. If one of the two constructions fails, the other fails in the
same way. -/
theorem C119_same_tree (hk : 0 < k) (hmin : 0 ≤ env.minTol) (hf : 0 ≤ env.tolFactor) (hm : RoomFor env m vertices)
    (hm' : RoomFor env m' (vertices.map (mapPt (stretch k k x0 y0))))
    (hw : k = 1 ∨ WideEnough env vertices ∧ WideEnough env (vertices.map (mapPt (stretch k k x0 y0)))) :
    (∀ t, EdgeCellTree.init env vertices edges nBuckets cellsPerLeaf = .ok t →
      ∃ t', EdgeCellTree.init env (vertices.map (mapPt (stretch k k x0 y0))) edges nBuckets cellsPerLeaf = .ok t' ∧
        SameShape (stretch k k x0 y0) t t' ∧ Celltree.toDictOfLists t'.data.nodes = Celltree.toDictOfLists t.data.nodes) ∧
    ∀ e, EdgeCellTree.init env vertices edges nBuckets cellsPerLeaf = .error e ↔
      EdgeCellTree.init env (vertices.map (mapPt (stretch k k x0 y0))) edges nBuckets cellsPerLeaf = .error e := by
  have h := edgeInit_rel (edges := edges) (nBuckets := nBuckets) (cellsPerLeaf := cellsPerLeaf) hk hmin hf hm hm' hw
  constructor
  · intro t ht
    obtain ⟨t', h1, h2⟩ := h.ok_left ht
    have h3 := h2.sameShape fun d x x' h => h
    exact ⟨t', h1, h3, h3.toDictOfLists⟩
  · exact h.error_iff

variable (hk : 0 < k) (hmin : 0 < env.minTol) (hf : 0 ≤ env.tolFactor) (hm : RoomFor env m vertices)
    (hm' : RoomFor env m' (vertices.map (mapPt (stretch k k x0 y0))))
    (hw : k = 1 ∨ WideEnough env vertices ∧ WideEnough env (vertices.map (mapPt (stretch k k x0 y0))))
    (ht : EdgeCellTree.init env vertices edges nBuckets cellsPerLeaf = .ok t)
    (ht' : EdgeCellTree.init env (vertices.map (mapPt (stretch k k x0 y0))) edges nBuckets cellsPerLeaf = .ok t')

include hk hmin hf hm hm' hw ht ht'

theorem network_tree : TreeRel (StretchRel k k x0 y0) t t' := by
  obtain ⟨t'', h1, h2⟩ := (edgeInit_rel hk hmin.le hf hm hm' hw).ok_left ht
  rw [ht'] at h1
  cases h1
  exact h2

/-- **C119**, `locate_points` (exact arithmetic): with a tolerance in the new units, the same edges are found. -/
theorem C119_locate_points {tol : K} (points : List (Pt K)) (sched : List Nat) :
    t'.locatePointsOnEdge env (points.map (mapPt (stretch k k x0 y0))) (some (k * tol)) sched =
      t.locatePointsOnEdge env points (some tol) sched :=
  (locatePointsOnEdge_rel hk (network_tree hk hmin hf hm hm' hw ht ht') (forall₂_mapPt (f := stretch k k x0 y0) fun _ _ => ⟨rfl, rfl⟩) sched).symm

/-- **C119**, default tolerance (exact arithmetic): without a tolerance, the same edges are found if the network is translated. For other
units the lower limit of the default tolerance must not matter, and the root must be exact. -/
theorem C119_locate_points_default (hv : ValidEdges vertices.length edges) (hsqrt : ∀ x, env.sqrt (k * k * x) = k * env.sqrt x)
    (hbig : k = 1 ∨ ∃ b ∈ t.data.bbCoords, env.minTol ≤ env.tolFactor * diagonal env b ∧
      env.minTol ≤ k * (env.tolFactor * diagonal env b)) (hne : edges.rows ≠ []) (points : List (Pt K)) (sched : List Nat) :
    t'.locatePointsOnEdge env (points.map (mapPt (stretch k k x0 y0))) none sched = t.locatePointsOnEdge env points none sched := by
  have h := network_tree hk hmin hf hm hm' hw ht ht'
  have hv' : ValidEdges (vertices.map (mapPt (stretch k k x0 y0))).length edges := by rw [List.length_map]; exact hv
  obtain ⟨bt, τ, _, hc⟩ := EdgeCellTree.init_spec hv ht
  obtain ⟨bt', τ', _, hc'⟩ := EdgeCellTree.init_spec hv' ht'
  obtain ⟨tol, htol⟩ : ∃ tol, t.tolerance env none = .ok tol := by
    have hl := hc.length
    unfold CellTree.tolerance defaultTolerance
    simp only
    rw [hc.distances]
    match e : t.data.bbCoords with
    | [] =>
      rw [e] at hl
      exact absurd (List.length_eq_zero_iff.1 hl.symm) hne
    | b :: bs => exact ⟨_, rfl⟩
  have htol' := stretch_boxes_tolerance (env := env) (x0 := x0) (y0 := y0) hk hc.distances hc'.distances
    (h.sameShape fun d x x' h => h).boxes hsqrt hf hbig htol
  have e1 : t.locatePointsOnEdge env points none sched = t.locatePointsOnEdge env points (some tol) sched := by
    unfold CellTree.locatePointsOnEdge
    rw [htol]
    rfl
  have e2 : ∀ ps, t'.locatePointsOnEdge env ps none sched = t'.locatePointsOnEdge env ps (some (k * tol)) sched := by
    intro ps
    unfold CellTree.locatePointsOnEdge
    rw [htol']
    rfl
  rw [e1, e2]
  exact C119_locate_points hk hmin hf hm hm' hw ht ht' points sched

/-- **C119**, `intersect_edges` (exact arithmetic): the pairs are the same, in the same order, and the locations are the images of the
former ones. For other units, the lower limit of the tolerance may matter for no edge of the two networks. -/
theorem C119_intersect_edges (hv : ValidEdges vertices.length edges)
    (hl : k = 1 ∨ LongEdges env vertices edges ∧ LongEdges env (vertices.map (mapPt (stretch k k x0 y0))) edges)
    (queries : List (Pt K × Pt K)) (nThreads : Nat) (s : List Nat) :
    t'.intersectEdgesOnEdge env (queries.map fun e => (mapPt (stretch k k x0 y0) e.1, mapPt (stretch k k x0 y0) e.2)) nThreads s =
      (fun r => (r.1, r.2.1, r.2.2.map fun q => q.map (mapPt (stretch k k x0 y0)))) <$> t.intersectEdgesOnEdge env queries nThreads s := by
  have h := network_tree hk hmin hf hm hm' hw ht ht'
  have hv' : ValidEdges (vertices.map (mapPt (stretch k k x0 y0))).length edges := by rw [List.length_map]; exact hv
  obtain ⟨bt, τ, _, hc⟩ := EdgeCellTree.init_spec hv ht
  obtain ⟨bt', τ', _, hc'⟩ := EdgeCellTree.init_spec hv' ht'
  have he : List.Forall₂ (PairRel (PtRel (StretchRel k k x0 y0))) queries
      (queries.map fun e => (mapPt (stretch k k x0 y0) e.1, mapPt (stretch k k x0 y0) e.2)) := by
    rw [List.forall₂_map_right_iff, List.forall₂_same]
    exact fun e _ => ⟨⟨rfl, rfl⟩, rfl, rfl⟩
  refine RelM.map_eq (S := fun r r' => r.1 = r'.1 ∧ r.2.1 = r'.2.1 ∧ List.Forall₂ (OptRel (PtRel (StretchRel k k x0 y0))) r.2.2 r'.2.2) ?_ ?_
  · unfold CellTree.intersectEdgesOnEdge
    refine (locateEdges_rel (stretch_sides hk hk) (stretch_clip hk hk) h
      (fun a a' b b' ha hb j => edgeEdgeIntersect_rel hk hc hc' hv hmin hl ha hb j) he nThreads s).bind ?_
    rintro ⟨i, j, xy⟩ ⟨i', j', xy'⟩ ⟨h1, h2, h3⟩
    refine ⟨h1, h2, ?_⟩
    rw [List.forall₂_map_left_iff, List.forall₂_map_right_iff]
    exact forall₂_mono h3 fun q q' hq => hq.1
  · rintro ⟨i, j, xy⟩ ⟨i', j', xy'⟩ ⟨h1, h2, h3⟩
    simp only at h1 h2 h3 ⊢
    subst h1 h2
    have hq : List.Forall₂ (fun q q' => q' = q.map (mapPt (stretch k k x0 y0))) xy xy' := by
      refine forall₂_mono h3 fun o o' h => ?_
      match o, o', h with
      | none, none, _ => rfl
      | some p, some p', h => exact congrArg some (Pt.ext' h.1 h.2)
    rw [forall₂_map_of hq]

end

/-! ## The hypotheses can be met -/

instance {env : Env ℚ} {m : ℚ} {vertices : List (Pt ℚ)} : Decidable (RoomFor env m vertices) :=
  inferInstanceAs (Decidable ((∀ p ∈ vertices, (-m ≤ p.x ∧ p.x ≤ m) ∧ -m ≤ p.y ∧ p.y ≤ m) ∧
    m + max env.minTol (env.tolFactor * (m + m)) < env.floatMax ∧ env.floatMin < -(m + max env.minTol (env.tolFactor * (m + m)))))

instance {env : Env ℚ} {vertices : List (Pt ℚ)} : Decidable (WideEnough env vertices) :=
  inferInstanceAs (Decidable (∃ p ∈ vertices, ∃ q ∈ vertices, env.minTol ≤ env.tolFactor * (p.x - q.x) ∨
    env.minTol ≤ env.tolFactor * (p.y - q.y)))

namespace Ex

theorem net_room : RoomFor qEnv 1000 netVerts ∧ RoomFor qEnv 1000 (netVerts.map (mapPt meters)) := by decide +kernel

theorem net_wide : WideEnough qEnv netVerts ∧ WideEnough qEnv (netVerts.map (mapPt meters)) := by decide +kernel

theorem net_long {f : Bool → ℚ → ℚ} (h : ∀ r ∈ [(0, 1), (1, 2), (2, 3), (3, 0), (0, 2), (4, 4), (4, 5)], ∀ p ∈ (netVerts.map (mapPt f))[r.1]?,
      ∀ q ∈ (netVerts.map (mapPt f))[r.2]?, p ≠ q →
      qEnv.minTol ≤ qEnv.tolFactor * max (max (q.x - p.x) (p.x - q.x)) (max (q.y - p.y) (p.y - q.y))) :
    LongEdges qEnv (netVerts.map (mapPt f)) netEdges := by
  rintro j p q ⟨v, w, g1, g2, g3⟩ hpq
  have key : ∀ r ∈ netEdges.rows, ∃ v w : Nat, r = [(v : Int), (w : Int)] ∧
      (v, w) ∈ [(0, 1), (1, 2), (2, 3), (3, 0), (0, 2), (4, 4), (4, 5)] := by
    intro r hr
    simp only [netEdges, List.mem_cons, List.not_mem_nil, or_false] at hr
    rcases hr with rfl | rfl | rfl | rfl | rfl | rfl | rfl
    exacts [⟨0, 1, rfl, by decide⟩, ⟨1, 2, rfl, by decide⟩, ⟨2, 3, rfl, by decide⟩, ⟨3, 0, rfl, by decide⟩, ⟨0, 2, rfl, by decide⟩,
      ⟨4, 4, rfl, by decide⟩, ⟨4, 5, rfl, by decide⟩]
  obtain ⟨v', w', e, hmem⟩ := key _ (List.mem_of_getElem? g1)
  simp only [List.cons.injEq, and_true] at e
  obtain ⟨rfl, rfl⟩ := e
  rw [Int.toNat_natCast] at g2 g3
  exact h _ hmem p (by rw [g2]; rfl) q (by rw [g3]; rfl) hpq

theorem net_long' : LongEdges qEnv netVerts netEdges ∧ LongEdges qEnv (netVerts.map (mapPt meters)) netEdges := by
  constructor
  · have := net_long (f := fun _ x => x) (by decide +kernel)
    rwa [show netVerts.map (mapPt fun _ x => x) = netVerts by decide +kernel] at this
  · exact net_long (by decide +kernel)

end Ex

set_option synthInstance.maxSize 1000 in
/-- A network with an edge of length zero, in other units: a query across the network, one along an edge, and one that misses
everything; a point on an edge, one on a node, and one that is on no edge. -/
example : ∃ t t', EdgeCellTree.init Ex.qEnv Ex.netVerts Ex.netEdges 4 2 = .ok t ∧
    EdgeCellTree.init Ex.qEnv (Ex.netVerts.map (mapPt Ex.meters)) Ex.netEdges 4 2 = .ok t' ∧
    t'.intersectEdgesOnEdge Ex.qEnv ([(⟨-1, 1⟩, ⟨6, 1⟩), (⟨1, 0⟩, ⟨4, 0⟩), (⟨3, 0⟩, ⟨3, 9⟩)].map fun e =>
      (mapPt Ex.meters e.1, mapPt Ex.meters e.2)) 2 [1, 0] =
      .ok ([0, 0, 0, 0, 1, 1], [6, 4, 1, 3, 1, 0],
        [some ⟨5 / 3 - 100, 1 / 3 + 50⟩, some ⟨1 / 3 - 100, 1 / 3 + 50⟩, some ⟨2 / 3 - 100, 1 / 3 + 50⟩, some ⟨-100, 1 / 3 + 50⟩,
          some ⟨2 / 3 - 100, 50⟩, some ⟨1 / 2 - 100, 50⟩]) ∧
    t'.locatePointsOnEdge Ex.qEnv ([⟨1, 1⟩, ⟨5, 0⟩, ⟨1, 1 / 2⟩].map (mapPt Ex.meters)) (some (1 / 3 * (1 / 10 ^ 13))) [2, 0, 1] =
      .ok [4, 6, -1] := by
  obtain ⟨t, h1, h2⟩ := bind_eq_ok.1 (show (EdgeCellTree.init Ex.qEnv Ex.netVerts Ex.netEdges 4 2 >>= fun t =>
    t.intersectEdgesOnEdge Ex.qEnv [(⟨-1, 1⟩, ⟨6, 1⟩), (⟨1, 0⟩, ⟨4, 0⟩), (⟨3, 0⟩, ⟨3, 9⟩)] 2 [1, 0] >>= fun r =>
    t.locatePointsOnEdge Ex.qEnv [⟨1, 1⟩, ⟨5, 0⟩, ⟨1, 1 / 2⟩] (some (1 / 10 ^ 13)) [2, 0, 1] >>= fun s =>
    Except.ok (r, s)) = .ok (([0, 0, 0, 0, 1, 1], [6, 4, 1, 3, 1, 0],
        [some ⟨5, 1⟩, some ⟨1, 1⟩, some ⟨2, 1⟩, some ⟨0, 1⟩, some ⟨2, 0⟩, some ⟨3 / 2, 0⟩]), [4, 6, -1]) by decide +kernel)
  obtain ⟨r, h3, h4⟩ := bind_eq_ok.1 h2
  obtain ⟨s, h5, h6⟩ := bind_eq_ok.1 h4
  obtain ⟨rfl, rfl⟩ := Prod.mk.inj (Except.ok.inj h6)
  have p1 : 0 < Ex.qEnv.minTol := by decide +kernel
  have p2 : 0 ≤ Ex.qEnv.tolFactor := by decide +kernel
  have hk : (0 : ℚ) < 1 / 3 := by norm_num
  obtain ⟨t', h1', -⟩ := (C119_same_tree (x0 := -100) (y0 := 50) hk p1.le p2 Ex.net_room.1 Ex.net_room.2 (Or.inr Ex.net_wide)).1 t h1
  refine ⟨t, t', h1, h1', ?_, ?_⟩
  · have := C119_intersect_edges hk p1 p2 Ex.net_room.1 Ex.net_room.2 (Or.inr Ex.net_wide) h1 h1' Ex.net_valid (Or.inr Ex.net_long')
      [(⟨-1, 1⟩, ⟨6, 1⟩), (⟨1, 0⟩, ⟨4, 0⟩), (⟨3, 0⟩, ⟨3, 9⟩)] 2 [1, 0]
    rw [h3] at this
    refine this.trans ?_
    decide +kernel
  · rw [← h5]
    exact C119_locate_points hk p1 p2 Ex.net_room.1 Ex.net_room.2 (Or.inr Ex.net_wide) h1 h1' _ _

set_option synthInstance.maxSize 1000 in
/-- The network with another origin, and the default tolerance. -/
example : ∃ t t', EdgeCellTree.init Ex.qEnv Ex.netVerts Ex.netEdges 4 2 = .ok t ∧
    EdgeCellTree.init Ex.qEnv (Ex.netVerts.map (mapPt (stretch 1 1 10 20))) Ex.netEdges 4 2 = .ok t' ∧
    t'.locatePointsOnEdge Ex.qEnv ([⟨1, 1⟩, ⟨5, 0⟩, ⟨1, 1 / 2⟩].map (mapPt (stretch 1 1 10 20))) none [2, 0, 1] = .ok [4, 6, -1] := by
  obtain ⟨t, h1, h2⟩ := bind_eq_ok.1 (show (EdgeCellTree.init Ex.qEnv Ex.netVerts Ex.netEdges 4 2 >>= fun t =>
    t.locatePointsOnEdge Ex.qEnv [⟨1, 1⟩, ⟨5, 0⟩, ⟨1, 1 / 2⟩] none [2, 0, 1]) = .ok [4, 6, -1] by decide +kernel)
  have p1 : 0 < Ex.qEnv.minTol := by decide +kernel
  have p2 : 0 ≤ Ex.qEnv.tolFactor := by decide +kernel
  have r : RoomFor Ex.qEnv 1000 (Ex.netVerts.map (mapPt (stretch 1 1 10 20))) := by decide +kernel
  obtain ⟨t', h1', -⟩ := (C119_same_tree one_pos p1.le p2 Ex.net_room.1 r (Or.inl rfl)).1 t h1
  refine ⟨t, t', h1, h1', ?_⟩
  rw [← h2]
  exact C119_locate_points_default one_pos p1 p2 Ex.net_room.1 r (Or.inl rfl) h1 h1' Ex.net_valid (fun x => by rw [one_mul, one_mul, one_mul])
    (Or.inl rfl) (by decide) _ _

end Celltree
