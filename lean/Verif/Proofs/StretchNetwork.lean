import Verif.Proofs.StretchWeights
import Verif.Proofs.EdgeTree
import Verif.Spec.StretchNetwork

/-!
# Trees of edges in scaled coordinates
-/

set_option linter.unusedSectionVars false

namespace Celltree

section
variable {K : Type} [Field K] [LinearOrder K] [IsStrictOrderedRing K] {env : Env K} {k x0 y0 : K}

local notation "Q" => PtRel (StretchRel k k x0 y0)

theorem fmin_affine (hk : 0 < k) (x y o : K) : fmin (k * x + o) (k * y + o) = k * fmin x y + o := by
  unfold fmin
  simp only [add_lt_add_iff_right, mul_lt_mul_iff_right₀ hk]
  split <;> rfl

theorem fmax_affine (hk : 0 < k) (x y o : K) : fmax (k * x + o) (k * y + o) = k * fmax x y + o := by
  unfold fmax
  simp only [add_lt_add_iff_right, mul_lt_mul_iff_right₀ hk]
  split <;> rfl

theorem minList_affine (hk : 0 < k) (o : K) (l : List K) : minList (l.map (k * · + o)) = (k * · + o) <$> minList l := by
  cases l with
  | nil => rfl
  | cons x l =>
    show Except.ok _ = Except.ok _
    congr 1
    induction l generalizing x with
    | nil => rfl
    | cons y l ih => rw [List.map_cons, List.foldl_cons, List.foldl_cons, fmin_affine hk, ih]

theorem maxList_affine (hk : 0 < k) (o : K) (l : List K) : maxList (l.map (k * · + o)) = (k * · + o) <$> maxList l := by
  cases l with
  | nil => rfl
  | cons x l =>
    show Except.ok _ = Except.ok _
    congr 1
    induction l generalizing x with
    | nil => rfl
    | cons y l ih => rw [List.map_cons, List.foldl_cons, List.foldl_cons, fmax_affine hk, ih]

theorem wide_extent {vs : List (Pt K)} (hf : 0 ≤ env.tolFactor) (h : WideEnough env vs) {X x Y y : K} (h1 : maxList (vs.map Pt.x) = .ok X)
    (h2 : minList (vs.map Pt.x) = .ok x) (h3 : maxList (vs.map Pt.y) = .ok Y) (h4 : minList (vs.map Pt.y) = .ok y) :
    env.minTol ≤ env.tolFactor * max (X - x) (Y - y) := by
  obtain ⟨p, hp, q, hq, h⟩ := h
  have a1 := maxList_ge h1 p.x (List.mem_map_of_mem hp)
  have a2 := minList_le h2 q.x (List.mem_map_of_mem hq)
  have a3 := maxList_ge h3 p.y (List.mem_map_of_mem hp)
  have a4 := minList_le h4 q.y (List.mem_map_of_mem hq)
  rcases h with h | h
  · exact h.trans (mul_le_mul_of_nonneg_left (le_max_of_le_left (by linarith)) hf)
  · exact h.trans (mul_le_mul_of_nonneg_left (le_max_of_le_right (by linarith)) hf)

/-- The widening of the boxes is scaled with the coordinates. -/
theorem globalTolerance_rel (hk : 0 < k) (hf : 0 ≤ env.tolFactor) (vs : List (Pt K))
    (hw : k = 1 ∨ WideEnough env vs ∧ WideEnough env (vs.map (mapPt (stretch k k x0 y0)))) :
    RelM (fun c c' => c' = k * c) (globalTolerance env vs) (globalTolerance env (vs.map (mapPt (stretch k k x0 y0)))) := by
  have ex : (vs.map (mapPt (stretch k k x0 y0))).map Pt.x = (vs.map Pt.x).map (k * · + x0) := by
    rw [List.map_map, List.map_map]
    rfl
  have ey : (vs.map (mapPt (stretch k k x0 y0))).map Pt.y = (vs.map Pt.y).map (k * · + y0) := by
    rw [List.map_map, List.map_map]
    rfl
  have hx : ∀ X x Y y, maxList (vs.map Pt.x) = .ok X → minList (vs.map Pt.x) = .ok x → maxList (vs.map Pt.y) = .ok Y →
      minList (vs.map Pt.y) = .ok y → k = 1 ∨ env.minTol ≤ env.tolFactor * max (X - x) (Y - y) ∧
        env.minTol ≤ env.tolFactor * max (k * X + x0 - (k * x + x0)) (k * Y + y0 - (k * y + y0)) := by
    intro X x Y y h1 h2 h3 h4
    refine hw.imp id fun h => ⟨wide_extent hf h.1 h1 h2 h3 h4, wide_extent hf h.2 ?_ ?_ ?_ ?_⟩
    · rw [ex, maxList_affine hk, h1]; rfl
    · rw [ex, minList_affine hk, h2]; rfl
    · rw [ey, maxList_affine hk, h3]; rfl
    · rw [ey, minList_affine hk, h4]; rfl
  unfold globalTolerance
  rw [ex, ey, maxList_affine hk, minList_affine hk, maxList_affine hk, minList_affine hk]
  match h1 : maxList (vs.map Pt.x), h2 : minList (vs.map Pt.x), h3 : maxList (vs.map Pt.y), h4 : minList (vs.map Pt.y) with
  | .error e, _, _, _ => exact rfl
  | .ok X, .error e, _, _ => exact rfl
  | .ok X, .ok x, .error e, _ => exact rfl
  | .ok X, .ok x, .ok Y, .error e => exact rfl
  | .ok X, .ok x, .ok Y, .ok y =>
    show fmax env.minTol (env.tolFactor * fmax (k * X + x0 - (k * x + x0)) (k * Y + y0 - (k * y + y0))) =
      k * fmax env.minTol (env.tolFactor * fmax (X - x) (Y - y))
    have e1 : k * X + x0 - (k * x + x0) = k * (X - x) := by ring
    have e2 : k * Y + y0 - (k * y + y0) = k * (Y - y) := by ring
    rcases hx X x Y y h1 h2 h3 h4 with rfl | ⟨a, b⟩
    · rw [e1, e2, one_mul, one_mul, one_mul]
    · rw [e1, e2] at b ⊢
      simp only [fmax_eq]
      rw [max_eq_right a, max_eq_right b, ← mul_max_of_nonneg _ _ hk.le, mul_left_comm]

theorem edgeBoundingBox_rel (hk : 0 < k) {vs vs' : List (Pt K)} (hv : List.Forall₂ Q vs vs') (e : List Int) (tol : K) :
    RelM (BoxRel (StretchRel k k x0 y0)) (edgeBoundingBox e vs tol) (edgeBoundingBox e vs' (k * tol)) := by
  have ho := stretch_order (x0 := x0) (y0 := y0) hk hk
  unfold edgeBoundingBox
  refine (RelM.of_eq rfl).bind fun i i' hi => ?_
  subst hi
  refine (rdI_rel hv i).bind fun v v' h1 => ?_
  refine (RelM.of_eq rfl).bind fun i i' hi => ?_
  subst hi
  refine (rdI_rel hv i).bind fun w w' h2 => ?_
  have sx : ∀ {p p' : Pt K}, Q p p' → StretchRel k k x0 y0 false (p.x - tol) (p'.x - k * tol) ∧
      StretchRel k k x0 y0 false (p.x + tol) (p'.x + k * tol) := by
    intro p p' h
    constructor
    · show _ = k * _ + x0
      rw [stretch_x h]; ring
    · show _ = k * _ + x0
      rw [stretch_x h]; ring
  have sy : ∀ {p p' : Pt K}, Q p p' → StretchRel k k x0 y0 true (p.y - tol) (p'.y - k * tol) ∧
      StretchRel k k x0 y0 true (p.y + tol) (p'.y + k * tol) := by
    intro p p' h
    constructor
    · show _ = k * _ + y0
      rw [stretch_y h]; ring
    · show _ = k * _ + y0
      rw [stretch_y h]; ring
  exact boxRel_iff.2 ⟨fmin_rel ho (sx h1).1 (sx h2).1, fmax_rel ho (sx h1).2 (sx h2).2, fmin_rel ho (sy h1).1 (sy h2).1,
    fmax_rel ho (sy h1).2 (sy h2).2⟩

theorem foldl_fmax_cons (l : List K) (x : K) : l.foldl fmax x ∈ x :: l := by
  induction l generalizing x with
  | nil => exact List.mem_cons_self
  | cons y l ih =>
    rw [List.foldl_cons]
    have := ih (fmax x y)
    rcases List.mem_cons.1 this with h | h
    · rw [h]
      unfold fmax
      split
      · exact List.mem_cons_of_mem _ List.mem_cons_self
      · exact List.mem_cons_self
    · exact List.mem_cons_of_mem _ (List.mem_cons_of_mem _ h)

theorem foldl_fmin_cons (l : List K) (x : K) : l.foldl fmin x ∈ x :: l := by
  induction l generalizing x with
  | nil => exact List.mem_cons_self
  | cons y l ih =>
    rw [List.foldl_cons]
    have := ih (fmin x y)
    rcases List.mem_cons.1 this with h | h
    · rw [h]
      unfold fmin
      split
      · exact List.mem_cons_of_mem _ List.mem_cons_self
      · exact List.mem_cons_self
    · exact List.mem_cons_of_mem _ (List.mem_cons_of_mem _ h)

theorem maxList_mem {l : List K} {x : K} (h : maxList l = .ok x) : x ∈ l := by
  cases l with
  | nil => cases h
  | cons y l =>
    cases h
    exact foldl_fmax_cons l y

theorem minList_mem {l : List K} {x : K} (h : minList l = .ok x) : x ∈ l := by
  cases l with
  | nil => cases h
  | cons y l =>
    cases h
    exact foldl_fmin_cons l y

/-- There is room for the boxes. -/
theorem boxes_in_range {m tol : K} {vs : List (Pt K)} (hmin : 0 ≤ env.minTol) (hf : 0 ≤ env.tolFactor) (h : RoomFor env m vs)
    (ht : globalTolerance env vs = .ok tol) {rows : List (List Int)} {coords : List (Box K)}
    (hc : buildEdgeBboxes rows vs tol = .ok coords) :
    ∀ b ∈ coords, ∀ d, (env.floatMin < b.lo d ∧ b.lo d < env.floatMax) ∧ env.floatMin < b.hi d ∧ b.hi d < env.floatMax := by
  obtain ⟨hm, hM, hN⟩ := h
  set T := max env.minTol (env.tolFactor * (m + m)) with hT
  have htol : tol ≤ T := by
    unfold globalTolerance at ht
    obtain ⟨X, h1, ht⟩ := bind_eq_ok.1 ht
    obtain ⟨x, h2, ht⟩ := bind_eq_ok.1 ht
    obtain ⟨Y, h3, ht⟩ := bind_eq_ok.1 ht
    obtain ⟨y, h4, ht⟩ := bind_eq_ok.1 ht
    have ht := Except.ok.inj ht
    rw [fmax_eq, fmax_eq] at ht
    rw [← ht, hT]
    refine max_le_max le_rfl (mul_le_mul_of_nonneg_left (max_le ?_ ?_) hf)
    · obtain ⟨p, hp, e1⟩ := List.mem_map.1 (maxList_mem h1)
      obtain ⟨q, hq, e2⟩ := List.mem_map.1 (minList_mem h2)
      have := (hm p hp).1.2
      have := (hm q hq).1.1
      rw [← e1, ← e2]
      linarith
    · obtain ⟨p, hp, e1⟩ := List.mem_map.1 (maxList_mem h3)
      obtain ⟨q, hq, e2⟩ := List.mem_map.1 (minList_mem h4)
      have := (hm p hp).2.2
      have := (hm q hq).2.1
      rw [← e1, ← e2]
      linarith
  have h0 : 0 ≤ tol := hmin.trans (globalTolerance_spec ht).1
  intro b hb
  obtain ⟨hl, hc⟩ := mapM_eq_ok hc
  obtain ⟨i, hi, rfl⟩ := List.getElem_of_mem hb
  obtain ⟨b, h1, h2⟩ := hc i rows[i] (List.getElem?_eq_getElem (hl ▸ hi))
  rw [List.getElem?_eq_getElem hi] at h1
  rw [Option.some.inj h1]
  unfold edgeBoundingBox at h2
  obtain ⟨_, _, h2⟩ := bind_eq_ok.1 h2
  obtain ⟨v, hv, h2⟩ := bind_eq_ok.1 h2
  obtain ⟨_, _, h2⟩ := bind_eq_ok.1 h2
  obtain ⟨w, hw, h2⟩ := bind_eq_ok.1 h2
  rw [← Except.ok.inj h2]
  obtain ⟨⟨v1, v2⟩, v3, v4⟩ := hm v (mem_of_rdI hv)
  obtain ⟨⟨w1, w2⟩, w3, w4⟩ := hm w (mem_of_rdI hw)
  have key : ∀ x : K, -m - tol ≤ x → x ≤ m + tol → env.floatMin < x ∧ x < env.floatMax := by
    intro x h1 h2
    constructor <;> linarith
  have kmin : ∀ x y : K, -m - tol ≤ x → x ≤ m + tol → -m - tol ≤ y → y ≤ m + tol → env.floatMin < fmin x y ∧ fmin x y < env.floatMax := by
    intro x y h1 h2 h3 h4
    unfold fmin
    split
    · exact key _ h3 h4
    · exact key _ h1 h2
  have kmax : ∀ x y : K, -m - tol ≤ x → x ≤ m + tol → -m - tol ≤ y → y ≤ m + tol → env.floatMin < fmax x y ∧ fmax x y < env.floatMax := by
    intro x y h1 h2 h3 h4
    unfold fmax
    split
    · exact key _ h3 h4
    · exact key _ h1 h2
  intro d
  cases d
  · exact ⟨kmin _ _ (by linarith) (by linarith) (by linarith) (by linarith), kmax _ _ (by linarith) (by linarith) (by linarith) (by linarith)⟩
  · exact ⟨kmin _ _ (by linarith) (by linarith) (by linarith) (by linarith), kmax _ _ (by linarith) (by linarith) (by linarith) (by linarith)⟩

/-- The trees of edges are the same. -/
theorem edgeInit_rel {vertices : List (Pt K)} {edges : IntArr} {nBuckets cellsPerLeaf : Int} {m m' : K} (hk : 0 < k) (hmin : 0 ≤ env.minTol)
    (hf : 0 ≤ env.tolFactor) (hm : RoomFor env m vertices) (hm' : RoomFor env m' (vertices.map (mapPt (stretch k k x0 y0))))
    (hw : k = 1 ∨ WideEnough env vertices ∧ WideEnough env (vertices.map (mapPt (stretch k k x0 y0)))) :
    RelM (TreeRel (StretchRel k k x0 y0)) (EdgeCellTree.init env vertices edges nBuckets cellsPerLeaf)
      (EdgeCellTree.init env (vertices.map (mapPt (stretch k k x0 y0))) edges nBuckets cellsPerLeaf) := by
  have hv : List.Forall₂ Q vertices (vertices.map (mapPt (stretch k k x0 y0))) :=
    forall₂_mapPt (f := stretch k k x0 y0) fun p _ => ⟨rfl, rfl⟩
  unfold EdgeCellTree.init
  split
  · exact rfl
  split
  · exact rfl
  have hg := globalTolerance_rel (x0 := x0) (y0 := y0) hk hf vertices hw
  match e1 : globalTolerance env vertices, e2 : globalTolerance env (vertices.map (mapPt (stretch k k x0 y0))), hg with
  | .error e, .error _, h => exact h
  | .ok tol, .ok tol', hg =>
    have hg : tol' = k * tol := hg
    subst hg
    simp only [ok_bind]
    have hB : RelM (List.Forall₂ (BoxRel (StretchRel k k x0 y0))) (buildEdgeBboxes edges.rows vertices tol)
        (buildEdgeBboxes edges.rows (vertices.map (mapPt (stretch k k x0 y0))) (k * tol)) := by
      unfold buildEdgeBboxes
      refine mapM_rel (S := Eq) (List.forall₂_same.2 fun _ _ => rfl) fun r r' h => ?_
      subst h
      exact edgeBoundingBox_rel hk hv r tol
    match b1 : buildEdgeBboxes edges.rows vertices tol,
      b2 : buildEdgeBboxes edges.rows (vertices.map (mapPt (stretch k k x0 y0))) (k * tol), hB with
    | .error e, .error _, h => exact h
    | .ok coords, .ok coords', hc =>
      have hc : List.Forall₂ (BoxRel (StretchRel k k x0 y0)) coords coords' := hc
      simp only [ok_bind]
      have hlen : coords.length = edges.rows.length := (mapM_eq_ok b1).1
      rw [← hlen]
      have r1 := boxes_in_range hmin hf hm e1 b1
      have r2 := boxes_in_range hmin hf hm' e2 b2
      have hin : List.Forall₂ (BoxRel (StretchIn env k k x0 y0)) coords coords' := by
        rw [List.forall₂_iff_get] at hc ⊢
        refine ⟨hc.1, fun i h1 h2 d => ?_⟩
        have g1 := r1 _ (List.getElem_mem h1) d
        have g2 := r2 _ (List.getElem_mem h2) d
        exact ⟨⟨(hc.2 i h1 h2 d).1, g1.1, g2.1⟩, (hc.2 i h1 h2 d).2, g1.2, g2.2⟩
      have hn : NumInput env coords := ⟨fun _ _ _ => ⟨trivial, trivial⟩, trivial, trivial⟩
      refine (initTree_rel (stretch_similar hk hk _) hin hn _).bind ?_
      rintro ⟨nodes, idx⟩ ⟨nodes', idx'⟩ ⟨h1, h2⟩
      simp only at h1 h2 ⊢
      subst h2
      refine (bboxTree_rel (stretch_order hk hk) hc).bind fun bb bb' hbb => ?_
      refine ⟨rfl, hv, forall₂_mono h1 fun a b h => ⟨h.child, h.ptr, h.size, h.dim, h.bounds.imp id fun h => ⟨h.1.1, h.2.1⟩⟩, rfl, hc, hbb,
        rfl, rfl, rfl⟩

theorem edgeTest_rel {tol : K} (hk : 0 < k) {t t' : CellTree K} (h : TreeRel (StretchRel k k x0 y0) t t') {p p' : Pt K} (hp : Q p p') (j : Nat) :
    edgeTest t.data p tol j = edgeTest t'.data p' (k * tol) j := by
  have hP := stretch_point (x0 := x0) (y0 := y0) (tol := tol) hk
  unfold edgeTest
  rw [h.elements]
  refine (RelM.bind (T := Eq) (RelM.of_eq rfl) fun f f' hf => ?_).eq
  subst hf
  refine (copyVertices_rel h.vertices f).bind fun poly poly' hpoly => ?_
  unfold pointOnEdge
  refine (rd_rel hpoly 0).bind fun v v' hv => ?_
  refine (rd_rel hpoly 1).bind fun w w' hw => ?_
  rw [hP.eqv hw hv]
  split
  · exact rfl
  · simp only
    rw [hP.near hp hv hw, hP.bounds hp hv hw]
    exact rfl

theorem locatePointsOnEdge_rel {tol : K} (hk : 0 < k) {t t' : CellTree K} (h : TreeRel (StretchRel k k x0 y0) t t')
    {points points' : List (Pt K)} (hp : List.Forall₂ Q points points') (sched : List Nat) :
    t.locatePointsOnEdge env points (some tol) sched = t'.locatePointsOnEdge env points' (some (k * tol)) sched := by
  show Celltree.locatePointsOnEdge points t.data tol sched = Celltree.locatePointsOnEdge points' t'.data (k * tol) sched
  unfold Celltree.locatePointsOnEdge locatePointOnEdge
  rw [hp.length_eq]
  congr 1
  funext i
  refine ((rd_rel hp i).bind (T := Eq) fun q q' hq => RelM.of_eq ?_).eq
  rw [show edgeTest t.data q tol = edgeTest t'.data q' (k * tol) from funext fun j => edgeTest_rel hk h hq j]
  exact locateWith_rel (stretch_order hk hk) h hq _

/-! ## Intersections of segments -/

theorem hasOverlap_rel (hk : 0 < k) (a b p q o tol : K) :
    hasOverlap (k * a + o) (k * b + o) (k * p + o) (k * q + o) (k * tol) = hasOverlap a b p q tol := by
  unfold hasOverlap
  rw [fmin_affine hk, fmin_affine hk, fmax_affine hk, fmax_affine hk]
  have s : ∀ x y : K, k * x + o - (k * y + o) = k * (x - y) := fun x y => by ring
  rw [s, s]
  simp only [mul_lt_mul_iff_right₀ hk]

theorem leftOf_rel (hk : 0 < k) {a a' p p' : Pt K} (ha : Q a a') (hp : Q p p') (U : Pt K) :
    leftOf a' p' ⟨k * U.x, k * U.y⟩ = leftOf a p U := by
  unfold leftOf
  simp only
  rw [stretch_dx hp ha, stretch_dy hp ha, decide_eq_decide, gt_iff_lt, gt_iff_lt,
    show k * U.y * (k * (a.x - p.x)) = k * k * (U.y * (a.x - p.x)) by ring, show k * U.x * (k * (a.y - p.y)) = k * k * (U.x * (a.y - p.y)) by ring,
    mul_lt_mul_iff_right₀ (mul_pos hk hk)]

theorem intersectionLocationPoint_rel (hk : 0 < k) {a a' p p' : Pt K} (ha : Q a a') (hp : Q p p') (U V : Pt K) (tol : K) :
    RelM (OptRel Q) (intersectionLocationPoint V U a p tol)
      (intersectionLocationPoint ⟨k * V.x, k * V.y⟩ ⟨k * U.x, k * U.y⟩ a' p' (k * tol)) := by
  have hkk : 0 < k * k := mul_pos hk hk
  unfold intersectionLocationPoint
  simp only
  rw [uniform_cross, uniform_within hk]
  split
  · exact trivial
  · rw [uniform_vector ha hp, uniform_cross]
    unfold fdiv
    rw [beq_zero_mul hkk.ne', mul_div_mul_left _ _ hkk.ne']
    split
    · exact rfl
    · constructor
      · show _ = k * _ + x0
        simp only
        rw [stretch_x ha]
        ring
      · show _ = k * _ + y0
        simp only
        rw [stretch_y ha]
        ring

theorem beq_affine (hk : 0 < k) (x y o : K) : (k * x + o == k * y + o) = (x == y) := by
  rw [Bool.eq_iff_iff, beq_iff_eq, beq_iff_eq, add_left_inj, mul_right_inj' hk.ne']

theorem orderEnds_rel (hk : 0 < k) {a a' b b' : Pt K} (ha : Q a a') (hb : Q b b') : PairRel Q (orderEnds a b) (orderEnds a' b') := by
  unfold orderEnds
  rw [stretch_x ha, stretch_x hb, stretch_y ha, stretch_y hb, beq_affine hk]
  simp only [gt_iff_lt, add_lt_add_iff_right, mul_lt_mul_iff_right₀ hk]
  split
  · exact ⟨hb, ha⟩
  · exact ⟨ha, hb⟩

theorem midpointCollinearLines_rel (hk : 0 < k) {a a' b b' p p' q q' : Pt K} (ha : Q a a') (hb : Q b b') (hp : Q p p') (hq : Q q q') :
    OptRel Q (midpointCollinearLines a b p q) (midpointCollinearLines a' b' p' q') := by
  unfold midpointCollinearLines
  have h1 := orderEnds_rel hk ha hb
  have h2 := orderEnds_rel hk hp hq
  generalize orderEnds a b = e1 at h1 ⊢
  generalize orderEnds a' b' = e2 at h1 ⊢
  generalize orderEnds p q = e3 at h2 ⊢
  generalize orderEnds p' q' = e4 at h2 ⊢
  obtain ⟨c, d⟩ := e1
  obtain ⟨c', d'⟩ := e2
  obtain ⟨r, s⟩ := e3
  obtain ⟨r', s'⟩ := e4
  obtain ⟨hc, hd⟩ := h1
  obtain ⟨hr, hs⟩ := h2
  simp only at hc hd hr hs ⊢
  rw [stretch_x hc, stretch_x hd, stretch_x hr, stretch_x hs, stretch_y hc, stretch_y hd, stretch_y hr, stretch_y hs, fmax_affine hk,
    fmax_affine hk, fmin_affine hk, fmin_affine hk]
  simp only [gt_iff_lt, add_lt_add_iff_right, mul_lt_mul_iff_right₀ hk]
  have hh : (half : K) + half = 1 := by
    unfold half
    rw [one_add_one_eq_two, add_halves]
  have key : ∀ x y o : K, half * (k * x + o + (k * y + o)) = k * (half * (x + y)) + o := by
    intro x y o
    linear_combination o * hh
  refine optRel_ite ⟨?_, ?_⟩
  · exact key _ _ x0
  · exact key _ _ y0

theorem linesIntersect_rel (hk : 0 < k) {a a' b b' p p' q q' : Pt K} (ha : Q a a') (hb : Q b b') (hp : Q p p') (hq : Q q q')
    (hm : k = 1 ∨ (p ≠ q →
      env.minTol ≤ env.tolFactor * max |q.x - p.x| |q.y - p.y| ∧ env.minTol ≤ env.tolFactor * max |q'.x - p'.x| |q'.y - p'.y|)) :
    RelM (fun r r' => r.1 = r'.1 ∧ OptRel Q r.2 r'.2) (linesIntersect env a b p q) (linesIntersect env a' b' p' q') := by
  by_cases hpq : p = q
  · subst hpq
    obtain rfl : p' = q' := Pt.ext' (hp.1.trans hq.1.symm) (hp.2.trans hq.2.symm)
    have z : ∀ r s t : Pt K, linesIntersect env r s t t = .ok (false, none) := by
      intro r s t
      simp [linesIntersect, toVector]
    rw [z, z]
    exact ⟨rfl, trivial⟩
  replace hm := hm.imp_right fun h => h hpq
  have hkk : 0 < k * k := mul_pos hk hk
  have htol : fmax env.minTol (env.tolFactor * fmax (fabs (k * (toVector p q).x)) (fabs (k * (toVector p q).y))) =
      k * fmax env.minTol (env.tolFactor * fmax (fabs (toVector p q).x) (fabs (toVector p q).y)) := by
    rcases hm with rfl | ⟨m1, m2⟩
    · rw [one_mul, one_mul, one_mul]
    · rw [stretch_dx hp hq, stretch_dy hp hq, abs_mul, abs_mul, abs_of_pos hk] at m2
      have m1 : env.minTol ≤ env.tolFactor * max |(toVector p q).x| |(toVector p q).y| := m1
      have m2 : env.minTol ≤ env.tolFactor * max (k * |(toVector p q).x|) (k * |(toVector p q).y|) := m2
      simp only [fmax_eq, fabs_mul_pos hk, fabs_eq]
      rw [max_eq_right m1, max_eq_right m2, ← mul_max_of_nonneg _ _ hk.le, mul_left_comm]
  unfold linesIntersect
  simp only
  rw [uniform_vector ha hb, uniform_vector hp hq, uniform_vector ha hp, uniform_vector ha hq]
  simp only [beq_zero_mul hk.ne', htol]
  rw [leftOf_rel hk ha hp, leftOf_rel hk hb hp, leftOf_rel hk hp ha, leftOf_rel hk hq ha, uniform_cross, uniform_cross, uniform_within hk,
    uniform_within hk, stretch_x ha, stretch_x hb, stretch_x hp, stretch_x hq, stretch_y ha, stretch_y hb, stretch_y hp, stretch_y hq,
    beq_affine hk, beq_affine hk, hasOverlap_rel hk, hasOverlap_rel hk]
  refine RelM.ite ⟨rfl, trivial⟩ (RelM.ite ⟨rfl, trivial⟩ (RelM.ite ⟨rfl, trivial⟩ (RelM.ite ⟨rfl, trivial⟩ (RelM.ite ?_ (RelM.ite ?_ ?_)))))
  · exact (intersectionLocationPoint_rel hk ha hp _ _ _).bind fun r r' hr => ⟨rfl, hr⟩
  · exact ⟨rfl, midpointCollinearLines_rel hk ha hb hp hq⟩
  · exact ⟨rfl, trivial⟩

theorem isEdge_stretch {vertices : List (Pt K)} {edges : IntArr} {j : Nat} {p q : Pt K} (h : IsEdge vertices edges j p q) :
    IsEdge (vertices.map (mapPt (stretch k k x0 y0))) edges j (mapPt (stretch k k x0 y0) p) (mapPt (stretch k k x0 y0) q) := by
  obtain ⟨v, w, h1, h2, h3⟩ := h
  exact ⟨v, w, h1, by rw [List.getElem?_map, h2]; rfl, by rw [List.getElem?_map, h3]; rfl⟩

theorem edgeEdgeIntersect_rel {vertices : List (Pt K)} {edges : IntArr} {nb cpl nb' cpl' : Nat} {t t' : CellTree K} {bt bt' : BT} {τ τ' : K}
    (hk : 0 < k) (hc : EdgeConstructed env vertices edges nb cpl t bt τ)
    (hc' : EdgeConstructed env (vertices.map (mapPt (stretch k k x0 y0))) edges nb' cpl' t' bt' τ')
    (hv : ValidEdges vertices.length edges) (hmin : 0 < env.minTol)
    (hm : k = 1 ∨ LongEdges env vertices edges ∧ LongEdges env (vertices.map (mapPt (stretch k k x0 y0))) edges)
    {a a' b b' : Pt K} (ha : Q a a') (hb : Q b b') (j : Nat) :
    RelM (IsectRel (StretchRel k k x0 y0)) (edgeEdgeIntersect env t.data a b j) (edgeEdgeIntersect env t'.data a' b' j) := by
  by_cases hj : j < edges.rows.length
  · obtain ⟨p, q, hj⟩ := hv.isEdge hj
    have hv' : ValidEdges (vertices.map (mapPt (stretch k k x0 y0))).length edges := by rw [List.length_map]; exact hv
    have hj' := isEdge_stretch (k := k) (x0 := x0) (y0 := y0) hj
    obtain ⟨f, xy, e1, e2⟩ := edgeEdgeIntersect_eq hc hv hmin hj a b
    obtain ⟨f', xy', e1', e2'⟩ := edgeEdgeIntersect_eq hc' hv' hmin hj' a' b'
    rw [e2, e2']
    have e : ∀ p q : Pt K, max (max (q.x - p.x) (p.x - q.x)) (max (q.y - p.y) (p.y - q.y)) = max |q.x - p.x| |q.y - p.y| := by
      intro p q
      rw [abs_eq_max_neg, abs_eq_max_neg, neg_sub, neg_sub]
    have := linesIntersect_rel (env := env) (k := k) (x0 := x0) (y0 := y0) (p' := mapPt (stretch k k x0 y0) p)
      (q' := mapPt (stretch k k x0 y0) q) (p := p) (q := q) hk ha hb ⟨rfl, rfl⟩ ⟨rfl, rfl⟩ (by
        refine hm.imp_right fun hm hpq => ?_
        have hpq' : mapPt (stretch k k x0 y0) p ≠ mapPt (stretch k k x0 y0) q := by
          intro h
          have h1 : k * p.x + x0 = k * q.x + x0 := congrArg Pt.x h
          have h2 : k * p.y + y0 = k * q.y + y0 := congrArg Pt.y h
          exact hpq (Pt.ext' (mul_left_cancel₀ hk.ne' (add_right_cancel h1)) (mul_left_cancel₀ hk.ne' (add_right_cancel h2)))
        rw [← e, ← e]
        exact ⟨hm.1 j p q hj hpq, hm.2 j _ _ hj' hpq'⟩)
    rw [e1, e1'] at this
    exact ⟨this.1, this.2, this.2⟩
  · have z : ∀ {t : CellTree K}, t.data.elements = edges.rows → ∀ r s, edgeEdgeIntersect env t.data r s j = .error .oob := by
      intro t h r s
      unfold edgeEdgeIntersect rd
      rw [h, List.getElem?_eq_none (by omega)]
      rfl
    rw [z hc.elements_eq, z hc'.elements_eq]
    exact rfl

end

end Celltree
