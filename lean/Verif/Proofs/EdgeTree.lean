import Verif.Proofs.Lines
import Verif.Proofs.LocatePoints

/-!
# What is known about an object after `EdgeCellTree2d.__init__`, and its searches, in exact arithmetic
-/

set_option linter.unusedSectionVars false

namespace Celltree

theorem ValidEdges.isEdge {F : Type} {vertices : List (Pt F)} {edges : IntArr} (h : ValidEdges vertices.length edges)
    {j : Nat} (hj : j < edges.rows.length) : ∃ p q, IsEdge vertices edges j p q := by
  obtain ⟨v, w, h1, h2, h3, h4, h5⟩ := h _ (List.getElem_mem hj)
  have hv : v.toNat < vertices.length := by omega
  have hw : w.toNat < vertices.length := by omega
  exact ⟨vertices[v.toNat], vertices[w.toNat], v, w, by rw [List.getElem?_eq_getElem hj, h1],
    List.getElem?_eq_getElem hv, List.getElem?_eq_getElem hw⟩

theorem IsEdge.unique {F : Type} {vertices : List (Pt F)} {edges : IntArr} {j : Nat} {p q p' q' : Pt F}
    (h : IsEdge vertices edges j p q) (h' : IsEdge vertices edges j p' q') : p = p' ∧ q = q' := by
  obtain ⟨v, w, h1, h2, h3⟩ := h
  obtain ⟨v', w', g1, g2, g3⟩ := h'
  rw [h1] at g1
  simp only [Option.some.injEq, List.cons.injEq, and_true] at g1
  obtain ⟨rfl, rfl⟩ := g1
  rw [h2] at g2
  rw [h3] at g3
  exact ⟨Option.some.inj g2, Option.some.inj g3⟩

theorem IsEdge.mem {F : Type} {vertices : List (Pt F)} {edges : IntArr} {j : Nat} {p q : Pt F}
    (h : IsEdge vertices edges j p q) : p ∈ vertices ∧ q ∈ vertices := by
  obtain ⟨v, w, _, h2, h3⟩ := h
  exact ⟨List.mem_of_getElem? h2, List.mem_of_getElem? h3⟩

variable {K : Type} [Field K] [LinearOrder K] [IsStrictOrderedRing K]

theorem foldl_fmax_le (l : List K) (x : K) : x ≤ l.foldl fmax x ∧ ∀ y ∈ l, y ≤ l.foldl fmax x := by
  induction l generalizing x with
  | nil => simp
  | cons y l ih =>
    obtain ⟨h1, h2⟩ := ih (fmax x y)
    rw [fmax_eq] at h1 h2
    simp only [List.foldl_cons, fmax_eq]
    refine ⟨(le_max_left _ _).trans h1, ?_⟩
    intro z hz
    rcases List.mem_cons.1 hz with rfl | hz
    · exact (le_max_right _ _).trans h1
    · exact h2 z hz

theorem foldl_fmin_ge (l : List K) (x : K) : l.foldl fmin x ≤ x ∧ ∀ y ∈ l, l.foldl fmin x ≤ y := by
  induction l generalizing x with
  | nil => simp
  | cons y l ih =>
    obtain ⟨h1, h2⟩ := ih (fmin x y)
    rw [fmin_eq] at h1 h2
    simp only [List.foldl_cons, fmin_eq]
    refine ⟨h1.trans (min_le_left _ _), ?_⟩
    intro z hz
    rcases List.mem_cons.1 hz with rfl | hz
    · exact h1.trans (min_le_right _ _)
    · exact h2 z hz

theorem maxList_ge {l : List K} {m : K} (h : maxList l = .ok m) : ∀ x ∈ l, x ≤ m := by
  cases l with
  | nil => cases h
  | cons x l =>
    cases h
    intro y hy
    rcases List.mem_cons.1 hy with rfl | hy
    · exact (foldl_fmax_le _ _).1
    · exact (foldl_fmax_le _ _).2 y hy

theorem minList_le {l : List K} {m : K} (h : minList l = .ok m) : ∀ x ∈ l, m ≤ x := by
  cases l with
  | nil => cases h
  | cons x l =>
    cases h
    intro y hy
    rcases List.mem_cons.1 hy with rfl | hy
    · exact (foldl_fmin_ge _ _).1
    · exact (foldl_fmin_ge _ _).2 y hy

theorem globalTolerance_spec {env : Env K} {vertices : List (Pt K)} {τ : K} (h : globalTolerance env vertices = .ok τ) :
    env.minTol ≤ τ ∧ (0 ≤ env.tolFactor → ∀ p ∈ vertices, ∀ q ∈ vertices, lineTol env p q ≤ τ) := by
  unfold globalTolerance at h
  obtain ⟨xM, h1, h⟩ := bind_eq_ok.1 h
  obtain ⟨xm, h2, h⟩ := bind_eq_ok.1 h
  obtain ⟨yM, h3, h⟩ := bind_eq_ok.1 h
  obtain ⟨ym, h4, h⟩ := bind_eq_ok.1 h
  have h := Except.ok.inj h
  rw [fmax_eq, fmax_eq] at h
  subst h
  refine ⟨le_max_left _ _, ?_⟩
  intro hf p hp q hq
  unfold lineTol
  refine max_le_max (le_refl _) (mul_le_mul_of_nonneg_left (max_le_max ?_ ?_) hf)
  · have a1 := maxList_ge h1 p.x (List.mem_map_of_mem hp)
    have a2 := maxList_ge h1 q.x (List.mem_map_of_mem hq)
    have a3 := minList_le h2 p.x (List.mem_map_of_mem hp)
    have a4 := minList_le h2 q.x (List.mem_map_of_mem hq)
    exact abs_le.2 ⟨by linarith, by linarith⟩
  · have a1 := maxList_ge h3 p.y (List.mem_map_of_mem hp)
    have a2 := maxList_ge h3 q.y (List.mem_map_of_mem hq)
    have a3 := minList_le h4 p.y (List.mem_map_of_mem hp)
    have a4 := minList_le h4 q.y (List.mem_map_of_mem hq)
    exact abs_le.2 ⟨by linarith, by linarith⟩

/-- The bounding box of an edge widened by `τ`. -/
def wideBox (τ : K) (p q : Pt K) : Box K := ⟨min p.x q.x - τ, max p.x q.x + τ, min p.y q.y - τ, max p.y q.y + τ⟩

theorem edgeBoundingBox_spec {vertices : List (Pt K)} {v w : Int} {p q : Pt K} (hv : 0 ≤ v) (hw : 0 ≤ w)
    (hp : vertices[v.toNat]? = some p) (hq : vertices[w.toNat]? = some q) (τ : K) :
    edgeBoundingBox [v, w] vertices τ = .ok (wideBox τ p q) := by
  unfold edgeBoundingBox
  have e1 : rdI vertices v = .ok p := by
    obtain ⟨n, rfl⟩ := Int.eq_ofNat_of_zero_le hv
    rw [show ((n : Int)).toNat = n by simp] at hp
    exact rdI_nat.trans (rd_of_some hp)
  have e2 : rdI vertices w = .ok q := by
    obtain ⟨n, rfl⟩ := Int.eq_ofNat_of_zero_le hw
    rw [show ((n : Int)).toNat = n by simp] at hq
    exact rdI_nat.trans (rd_of_some hq)
  rw [rd_of_some (show ([v, w] : List Int)[0]? = some v from rfl), ok_bind, e1, ok_bind,
    rd_of_some (show ([v, w] : List Int)[1]? = some w from rfl), ok_bind, e2, ok_bind]
  simp only [fmin_eq, fmax_eq]
  rw [max_add_add_right, max_add_add_right, sub_eq_add_neg, sub_eq_add_neg, sub_eq_add_neg, sub_eq_add_neg, min_add_add_right,
    min_add_add_right, ← sub_eq_add_neg, ← sub_eq_add_neg]
  rfl

/-- Everything that is known about an object `t` made from a table of edges. -/
structure EdgeConstructed (env : Env K) (vertices : List (Pt K)) (edges : IntArr) (nb cpl : Nat) (t : CellTree K) (bt : BT)
    (τ : K) : Prop where
  tree : TreeOk t.data bt
  built : Built env t.data.bbCoords.length t.data.bbCoords nb cpl t.data.nodes t.data.bbIndices bt
  vertices_eq : t.data.vertices = vertices
  elements_eq : t.data.elements = edges.rows
  length : t.data.bbCoords.length = edges.rows.length
  boxes : ∀ j p q, IsEdge vertices edges j p q → t.data.bbCoords[j]? = some (wideBox τ p q)
  bbox : TreeBox t.data.bbCoords t.data.bbox
  min : env.minTol ≤ τ
  lines : 0 ≤ env.tolFactor → ∀ p ∈ vertices, ∀ q ∈ vertices, lineTol env p q ≤ τ
  distances : t.bbDistances = t.data.bbCoords.map (bboxDistance env)
  nb2 : 2 ≤ nb
  cpl1 : 1 ≤ cpl

theorem EdgeCellTree.init_spec {env : Env K} {vertices : List (Pt K)} {edges : IntArr} {nBuckets cellsPerLeaf : Int}
    {t : CellTree K} (hv : ValidEdges vertices.length edges)
    (h : EdgeCellTree.init env vertices edges nBuckets cellsPerLeaf = .ok t) :
    ∃ bt τ, globalTolerance env vertices = .ok τ ∧
      EdgeConstructed env vertices edges nBuckets.toNat cellsPerLeaf.toNat t bt τ := by
  unfold EdgeCellTree.init at h
  by_cases h1 : nBuckets < 2
  · rw [if_pos h1] at h; cases h
  rw [if_neg h1] at h
  by_cases h2 : cellsPerLeaf < 1
  · rw [if_pos h2] at h; cases h
  rw [if_neg h2] at h
  obtain ⟨τ, hτ, h3⟩ := bind_eq_ok.1 h
  obtain ⟨coords, hco, h4⟩ := bind_eq_ok.1 h3
  obtain ⟨⟨nodes, idx⟩, hI, h5⟩ := bind_eq_ok.1 h4
  obtain ⟨bb, hbb, h6⟩ := bind_eq_ok.1 h5
  cases h6
  obtain ⟨hlen, hel⟩ := mapM_eq_ok hco
  have hn : ∀ b ∈ coords, ∀ dim, NumOrd.num (b.lo dim) ∧ NumOrd.num (b.hi dim) := fun _ _ _ => ⟨trivial, trivial⟩
  have hne : coords ≠ [] := by rintro rfl; cases hbb
  obtain ⟨bb', hb1, hb2⟩ := bboxTree_spec hne hn
  rw [hbb] at hb1
  cases hb1
  have hS := initTree_spec env edges.rows.length coords nBuckets.toNat cellsPerLeaf.toNat ⟨hn, trivial, trivial⟩ hlen
  rw [hI] at hS
  obtain ⟨bt, hbt⟩ := hS
  have hbt' : Built env coords.length coords nBuckets.toNat cellsPerLeaf.toNat nodes idx bt := by
    rw [hlen]; exact hbt
  obtain ⟨m1, m2⟩ := globalTolerance_spec hτ
  refine ⟨bt, τ, hτ, TreeOk.of_built (tree := ⟨edges.rows, vertices, nodes, idx, coords, bb, cellsPerLeaf.toNat⟩) hbt'
    hlen.symm hb2, hbt', rfl, rfl, hlen, ?_, hb2, m1, m2, rfl, by omega, by omega⟩
  rintro j p q ⟨v, w, h1, h2, h3⟩
  obtain ⟨b, e1, e2⟩ := hel j _ h1
  obtain ⟨v', w', hr, hv0, _, hw0, _⟩ := hv _ (List.mem_of_getElem? h1)
  simp only [List.cons.injEq, and_true] at hr
  obtain ⟨rfl, rfl⟩ := hr
  rw [edgeBoundingBox_spec hv0 hw0 h2 h3] at e2
  rw [e1, ← Except.ok.inj e2]

section
variable {env : Env K} {vertices : List (Pt K)} {edges : IntArr} {nb cpl : Nat} {t : CellTree K} {bt : BT} {τ : K}

/-- The vertices of a stored edge. -/
theorem EdgeConstructed.read (hc : EdgeConstructed env vertices edges nb cpl t bt τ)
    (hv : ValidEdges vertices.length edges) {j : Nat} {p q : Pt K} (hj : IsEdge vertices edges j p q) :
    ∃ row, rd t.data.elements j = .ok row ∧ copyVertices t.data.vertices row = .ok [p, q] ∧
      row.mapM (fun i => rdI t.data.vertices i) = .ok [p, q] := by
  obtain ⟨v, w, h1, h2, h3⟩ := hj
  obtain ⟨v', w', hr, hv0, hv1, hw0, hw1⟩ := hv _ (List.mem_of_getElem? h1)
  simp only [List.cons.injEq, and_true] at hr
  obtain ⟨rfl, rfl⟩ := hr
  have hm : ([v, w] : List Int).mapM (fun i => rdI vertices i) = .ok [p, q] := by
    rw [mapM_rdI (by intro x hx; simp only [List.mem_cons, List.not_mem_nil, or_false] at hx; rcases hx with rfl | rfl <;> omega)]
    simp [h2, h3]
  refine ⟨[v, w], by rw [hc.elements_eq]; exact rd_of_some h1, ?_, by rw [hc.vertices_eq]; exact hm⟩
  rw [hc.vertices_eq]
  exact hm

/-- The on-edge test. -/
theorem edgeTest_spec (hc : EdgeConstructed env vertices edges nb cpl t bt τ)
    (hv : ValidEdges vertices.length edges) {j : Nat} {p q : Pt K} (hj : IsEdge vertices edges j p q) (x : Pt K) (tol : K) :
    ∃ r, edgeTest t.data x tol j = .ok r ∧ (r = true ↔ Near tol x (p, q)) := by
  obtain ⟨row, h1, h2, _⟩ := hc.read hv hj
  unfold edgeTest
  rw [h1, ok_bind, h2, ok_bind]
  unfold pointOnEdge
  rw [rd_of_some (show ([p, q] : List (Pt K))[0]? = some p from rfl), ok_bind,
    rd_of_some (show ([p, q] : List (Pt K))[1]? = some q from rfl), ok_bind]
  have heqv : q.eqv p = true ↔ p = q := by
    unfold Pt.eqv
    simp only [Bool.and_eq_true, beq_iff_eq]
    exact ⟨fun h => Pt.ext' h.1.symm h.2.symm, fun h => h ▸ ⟨rfl, rfl⟩⟩
  by_cases hpq : p = q
  · rw [if_pos (heqv.2 hpq)]
    refine ⟨false, rfl, by simp, fun h => (h.1 hpq).elim⟩
  · rw [if_neg (fun h => hpq (heqv.1 h))]
    exact ⟨_, rfl, near_iff tol x p q hpq⟩

/-- What `locate_points` on edges answers for one point. -/
theorem locatePointOnEdge_cases (hc : EdgeConstructed env vertices edges nb cpl t bt τ)
    (hv : ValidEdges vertices.length edges) (x : Pt K) (tol : K) :
    (∃ (j : Nat) (p q : Pt K), locatePointOnEdge x t.data tol = .ok (j : Int) ∧ IsEdge vertices edges j p q ∧
      Near tol x (p, q)) ∨
    (locatePointOnEdge x t.data tol = .ok (-1) ∧ ∀ j p q, IsEdge vertices edges j p q → InBox (wideBox τ p q) x →
      ¬ Near tol x (p, q)) := by
  unfold locatePointOnEdge
  rcases locateWith_cases hc.tree (edgeTest t.data x tol) x with ⟨j, h1, h2, h3⟩ | ⟨h1, h2⟩ | ⟨j, e, _, h2, h3⟩
  · left
    rw [hc.length] at h2
    obtain ⟨p, q, hj⟩ := hv.isEdge h2
    obtain ⟨r, e1, e2⟩ := edgeTest_spec hc hv hj x tol
    rw [h3] at e1
    exact ⟨j, p, q, h1, hj, e2.1 (Except.ok.inj e1).symm⟩
  · right
    refine ⟨h1, ?_⟩
    intro j p q hj hb hn
    obtain ⟨r, e1, e2⟩ := edgeTest_spec hc hv hj x tol
    have := h2 j (pointCells_complete hc.tree (hc.boxes j p q hj) hb)
    rw [e1, e2.2 hn] at this
    cases this
  · exfalso
    rw [hc.length] at h2
    obtain ⟨p, q, hj⟩ := hv.isEdge h2
    obtain ⟨r, e1, e2⟩ := edgeTest_spec hc hv hj x tol
    rw [h3] at e1
    cases e1

theorem locatePointsOnEdge_ok_iff {points : List (Pt K)} {tol : K} {sched : List Nat}
    (hs : sched.Perm (List.range points.length)) {res : List Int} :
    t.locatePointsOnEdge env points (some tol) sched = .ok res ↔
      res.length = points.length ∧ ∀ (i : Nat) p v, points[i]? = some p → res[i]? = some v →
        locatePointOnEdge p t.data tol = .ok v := by
  unfold CellTree.locatePointsOnEdge CellTree.tolerance Celltree.locatePointsOnEdge
  rw [ok_bind, prange_eq_ok hs]
  constructor
  · rintro ⟨h1, h2⟩
    refine ⟨h1, ?_⟩
    intro i p v hp hv
    have hi := (List.getElem?_eq_some_iff.1 hv).1
    have := h2 i hi
    rw [rd_of_some hp, ok_bind, (List.getElem?_eq_some_iff.1 hv).2] at this
    exact this
  · rintro ⟨h1, h2⟩
    refine ⟨h1, ?_⟩
    intro i hi
    have hp : i < points.length := by omega
    rw [rd_of_lt hp, ok_bind]
    exact h2 i _ _ (by simp) (by simp)

/-- Points near an edge are in the widened box, if the tolerance is small enough: the distance perpendicular to the edge can
be up to √2 times larger along an axis. -/
theorem Near.inWide {tol : K} (h0 : 0 ≤ tol) (hτ : 0 ≤ τ) (hsmall : 2 * tol ^ 2 ≤ τ ^ 2) {x p q : Pt K}
    (h : Near tol x (p, q)) : InBox (wideBox τ p q) x := by
  obtain ⟨hne, hd, hx, hy⟩ := h
  simp only at hne hd hx hy
  have key : ∀ (P Q V W c : K), |W| ≤ |V| → c ^ 2 < tol ^ 2 * (V ^ 2 + W ^ 2) → V * Q - W * P = c →
      min 0 V ≤ P → P ≤ max 0 V → min 0 W - τ ≤ Q ∧ Q ≤ max 0 W + τ := by
    intro P Q V W c hWV hc hcross h1 h2
    have hV : 0 < |V| := by
      rcases (abs_nonneg V).lt_or_eq with h | h
      · exact h
      · exfalso
        rw [← h] at hWV
        have hW : W = 0 := abs_eq_zero.1 (le_antisymm hWV (abs_nonneg _))
        have hV0 : V = 0 := abs_eq_zero.1 h.symm
        rw [hW, hV0] at hc
        nlinarith [sq_nonneg c]
    have hW2 : W ^ 2 ≤ V ^ 2 := sq_le_sq.2 hWV
    have hc2 : c ^ 2 ≤ (τ * V) ^ 2 := by
      have := mul_le_mul_of_nonneg_right hsmall (sq_nonneg V)
      nlinarith [sq_nonneg tol, mul_le_mul_of_nonneg_left hW2 (sq_nonneg tol)]
    have hcabs : |c| ≤ τ * |V| := by
      have := sq_le_sq.1 hc2
      rwa [abs_mul, abs_of_nonneg hτ] at this
    have hVne : V ≠ 0 := abs_pos.1 hV
    -- Q = W * (P / V) + c / V
    have hQ : Q = W * (P / V) + c / V := by
      field_simp
      linarith
    have hcV : |c / V| ≤ τ := by rw [abs_div, div_le_iff₀ hV]; exact hcabs
    obtain ⟨b1, b2⟩ := abs_le.1 hcV
    have hu : 0 ≤ P / V ∧ P / V ≤ 1 := by
      rcases lt_or_gt_of_ne hVne with h | h
      · rw [min_eq_right h.le] at h1
        rw [max_eq_left h.le] at h2
        exact ⟨div_nonneg_of_nonpos h2 h.le, (div_le_one_of_neg h).2 h1⟩
      · rw [min_eq_left h.le] at h1
        rw [max_eq_right h.le] at h2
        exact ⟨div_nonneg h1 h.le, (div_le_one h).2 h2⟩
    have hW1 : min 0 W ≤ W * (P / V) ∧ W * (P / V) ≤ max 0 W := by
      rcases le_total 0 W with h | h
      · rw [min_eq_left h, max_eq_right h]
        exact ⟨mul_nonneg h hu.1, mul_le_of_le_one_right h hu.2⟩
      · rw [min_eq_right h, max_eq_left h]
        exact ⟨by nlinarith [hu.2], mul_nonpos_of_nonpos_of_nonneg h hu.1⟩
    rw [hQ]
    exact ⟨by linarith [hW1.1], by linarith [hW1.2]⟩
  have tr1 : ∀ u v w : K, min 0 (v - u) ≤ w - u ↔ min u v ≤ w := by
    intro u v w
    have : min u v = min 0 (v - u) + u := by rw [← min_add_add_right]; simp
    rw [this]; constructor <;> intro h <;> linarith
  have tr2 : ∀ u v w : K, w - u ≤ max 0 (v - u) ↔ w ≤ max u v := by
    intro u v w
    have : max u v = max 0 (v - u) + u := by rw [← max_add_add_right]; simp
    rw [this]; constructor <;> intro h <;> linarith
  have tr3 : ∀ u v w : K, min 0 (v - u) - τ ≤ w - u → min u v - τ ≤ w := by
    intro u v w
    have : min u v = min 0 (v - u) + u := by rw [← min_add_add_right]; simp
    rw [this]; intro h; linarith
  have tr4 : ∀ u v w : K, w - u ≤ max 0 (v - u) + τ → w ≤ max u v + τ := by
    intro u v w
    have : max u v = max 0 (v - u) + u := by rw [← max_add_add_right]; simp
    rw [this]; intro h; linarith
  rcases le_or_gt |q.y - p.y| |q.x - p.x| with hc | hc
  · obtain ⟨x1, x2⟩ := hx hc
    obtain ⟨y1, y2⟩ := key (x.x - p.x) (x.y - p.y) (q.x - p.x) (q.y - p.y) (orient p q x) hc hd
      (by unfold orient; ring) ((tr1 _ _ _).2 x1) ((tr2 _ _ _).2 x2)
    refine ⟨?_, ?_, tr3 _ _ _ y1, tr4 _ _ _ y2⟩
    · simp only [wideBox]; linarith
    · simp only [wideBox]; linarith
  · obtain ⟨y1, y2⟩ := hy hc
    obtain ⟨x1, x2⟩ := key (x.y - p.y) (x.x - p.x) (q.y - p.y) (q.x - p.x) (-orient p q x) hc.le
      (by rw [neg_sq]; unfold dist2 at hd; linarith) (by unfold orient; ring) ((tr1 _ _ _).2 y1) ((tr2 _ _ _).2 y2)
    refine ⟨tr3 _ _ _ x1, tr4 _ _ _ x2, ?_, ?_⟩
    · simp only [wideBox]; linarith
    · simp only [wideBox]; linarith

/-! ## Edge queries -/

theorem EdgeConstructed.pos (hc : EdgeConstructed env vertices edges nb cpl t bt τ) (hmin : 0 < env.minTol) : 0 < τ :=
  lt_of_lt_of_le hmin hc.min

theorem wideBox_nonempty (hτ : 0 ≤ τ) (p q : Pt K) : (wideBox τ p q).Nonempty := by
  have h1 : min p.x q.x ≤ max p.x q.x := min_le_max
  have h2 : min p.y q.y ≤ max p.y q.y := min_le_max
  constructor <;> simp only [wideBox] <;> linarith

theorem EdgeConstructed.box_nonempty (hc : EdgeConstructed env vertices edges nb cpl t bt τ)
    (hv : ValidEdges vertices.length edges) (hτ : 0 ≤ τ) : ∀ c ∈ t.data.bbCoords, c.Nonempty := by
  intro c hc'
  obtain ⟨i, r, hi, hi'⟩ := mem_of_getElem?_corr hc.length hc'
  obtain ⟨p, q, hj⟩ := hv.isEdge (List.getElem?_eq_some_iff.1 hi).1
  rw [hc.boxes i p q hj] at hi'
  cases hi'
  exact wideBox_nonempty hτ p q

theorem edgeEdgeIntersect_eq (hc : EdgeConstructed env vertices edges nb cpl t bt τ)
    (hv : ValidEdges vertices.length edges) (hmin : 0 < env.minTol) {j : Nat} {p q : Pt K}
    (hj : IsEdge vertices edges j p q) (a b : Pt K) :
    ∃ f xy, linesIntersect env a b p q = .ok (f, xy) ∧ edgeEdgeIntersect env t.data a b j = .ok (f, xy, xy) := by
  obtain ⟨row, h1, _, h3⟩ := hc.read hv hj
  obtain ⟨⟨f, xy⟩, hl⟩ : ∃ r, linesIntersect env a b p q = .ok r := ⟨_, linesIntersect_eq hmin a b p q⟩
  refine ⟨f, xy, hl, ?_⟩
  unfold edgeEdgeIntersect
  rw [h1, ok_bind, h3, ok_bind, rd_of_some (show ([p, q] : List (Pt K))[0]? = some p from rfl), ok_bind,
    rd_of_some (show ([p, q] : List (Pt K))[1]? = some q from rfl), ok_bind, hl, ok_bind]

theorem edgeEdgeTotal (hc : EdgeConstructed env vertices edges nb cpl t bt τ)
    (hv : ValidEdges vertices.length edges) (hmin : 0 < env.minTol) (a b : Pt K) :
    EdgeTotal t.data (edgeEdgeIntersect env t.data) a b where
  box := by
    obtain ⟨r, h, _⟩ := cohenSutherland_isSome (hc.bbox.nonempty (hc.box_nonempty hv (hc.pos hmin).le)) a b
    exact ⟨r, h⟩
  sides := by
    intro nd _ _
    obtain ⟨l, r, h, _⟩ := edgeSides_exact nd a b
    exact ⟨(l, r), h⟩
  isect := by
    intro j hj
    rw [hc.length] at hj
    obtain ⟨p, q, hj⟩ := hv.isEdge hj
    obtain ⟨f, xy, _, h⟩ := edgeEdgeIntersect_eq hc hv hmin hj a b
    exact ⟨_, h⟩

/-- The search finds all edges that pass the test. -/
theorem mem_edgeEdgeHits (hc : EdgeConstructed env vertices edges nb cpl t bt τ)
    (hv : ValidEdges vertices.length edges) (hmin : 0 < env.minTol) (hf : 0 ≤ env.tolFactor)
    {a b : Pt K} {j : Nat} {cd : Option (Pt K) × Option (Pt K)} :
    (j, cd) ∈ edgeHits t.data bt (edgeEdgeIntersect env t.data) (a, b) ↔
      ∃ p q xy, IsEdge vertices edges j p q ∧ cd = (xy, xy) ∧ linesIntersect env a b p q = .ok (true, xy) := by
  constructor
  · intro h
    obtain ⟨h1, h2, _⟩ := edgeHits_sound hc.tree h
    simp only at h1 h2
    rw [hc.length] at h1
    obtain ⟨p, q, hj⟩ := hv.isEdge h1
    obtain ⟨f, xy, e1, e2⟩ := edgeEdgeIntersect_eq hc hv hmin hj a b
    rw [h2] at e2
    have e2 := Except.ok.inj e2
    have hf : f = true := (congrArg Prod.fst e2).symm
    subst hf
    exact ⟨p, q, xy, hj, congrArg Prod.snd e2, e1⟩
  · rintro ⟨p, q, xy, hj, rfl, hl⟩
    obtain ⟨f, xy', e1, e2⟩ := edgeEdgeIntersect_eq hc hv hmin hj a b
    rw [hl] at e1
    have e1 := Except.ok.inj e1
    simp only [Prod.mk.injEq] at e1
    obtain ⟨rfl, rfl⟩ := e1
    -- a piece of the query is in the box
    have htol : 0 < lineTol env p q := lt_max_of_lt_left hmin
    rw [linesIntersect_eq hmin] at hl
    have hl := Except.ok.inj hl
    by_cases hg : LineGuard (lineTol env p q) a b p q
    swap
    · rw [if_neg hg] at hl; simp at hl
    rw [if_pos hg] at hl
    have hs : Straddles a b p q ∨ (NearLine (lineTol env p q) a b p ∧ NearLine (lineTol env p q) a b q) := by
      by_cases h1 : Straddles a b p q
      · exact Or.inl h1
      · right
        rw [if_neg h1] at hl
        by_contra h2
        rw [if_neg h2] at hl
        simp at hl
    obtain ⟨u, u0, u1, ⟨w1, w2⟩, w3, w4⟩ := near_wide htol hg hs
    have hle := hc.lines hf p hj.mem.1 q hj.mem.2
    have hp : SharesPiece a b (InBox (wideBox τ p q)) := by
      apply SharesPiece.of_strict hg.1 u0 u1 <;> simp only [wideBox] <;> linarith
    have e3 := hc.boxes j p q hj
    have hmem := List.mem_of_getElem? e3
    refine edgeHits_complete hc.tree e3 e2 ?_ ?_ ?_
    · obtain ⟨s, hs, hs'⟩ := cohenSutherland_isSome (hc.bbox.nonempty (hc.box_nonempty hv (hc.pos hmin).le)) a b
      have := hs'.2 (hp.mono fun p hp => hc.bbox.inBox hmem hp)
      obtain ⟨x, hx⟩ := Option.isSome_iff_exists.1 this
      exact ⟨x, by rw [← hx]; exact hs⟩
    · intro nd _
      obtain ⟨_, u, v, u0, uv, v1, hu, _⟩ := hp
      exact (edge_goes_down u0 (by linarith) hu nd).1
    · intro nd _
      obtain ⟨_, u, v, u0, uv, v1, hu, _⟩ := hp
      exact (edge_goes_down u0 (by linarith) hu nd).2

end

end Celltree
