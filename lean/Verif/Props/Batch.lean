import Verif.Proofs.Batch
import Verif.Props.Boxes
import Verif.Props.FloatEdges
import Verif.Props.Edges

/-!
# The queries of one call do not influence each other: C89

Any arithmetic, also with rounding. A call returns exactly if every single query returns, and then the result is the
concatenation of the single results. The number of threads and the schedules of the single calls may be different.
-/

set_option linter.unusedSectionVars false

namespace Celltree

/-- The numbers of the queries in the result of a call, if query number `k` has the answers `parts[k]`. -/
def queryNumbers {α : Type} (parts : List (List α)) : List Nat :=
  parts.zipIdx.flatMap fun p => List.replicate p.1.length p.2

theorem joinIdx_eq {α : Type} (parts : List (List α)) : joinIdx parts = queryNumbers parts := by
  have : ∀ k, (tagged k parts).map Prod.fst = (parts.zipIdx k).flatMap fun p => List.replicate p.1.length p.2 := by
    induction parts with
    | nil => intro k; rfl
    | cons p parts ih =>
      intro k
      rw [tagged_cons, List.map_append, ih, List.zipIdx_cons, List.flatMap_cons]
      simp [Function.comp_def]
  exact this 0

theorem queryNumbers_single {α : Type} (p : List α) : queryNumbers [p] = List.replicate p.length 0 := by
  simp [queryNumbers]

variable {F : Type} [Add F] [Sub F] [Mul F] [Div F] [Neg F] [Zero F] [One F] [IntCast F]
  [LT F] [LE F] [BEq F] [DecidableLT F] [DecidableLE F] [NumOrd F]

/-! ## Query faces can always be prepared -/

theorem boundingBoxLoop_ok {vertices : List (Pt F)} (A : List Int) (k : Nat) (hA : ∀ v ∈ A, 0 ≤ v ∧ v < vertices.length)
    (box : Box F) : ∃ b, boundingBoxLoop vertices (A ++ List.replicate k fillValue) box = .ok b := by
  induction A generalizing box with
  | nil =>
    cases k with
    | zero => exact ⟨_, rfl⟩
    | succ k => exact ⟨box, by simp [List.replicate_succ, boundingBoxLoop]⟩
  | cons v A ih =>
    obtain ⟨h0, h1⟩ := hA v (by simp)
    obtain ⟨p, hp, _⟩ := rdI_of_range h0 h1
    simp only [List.cons_append, boundingBoxLoop]
    split
    · exact ⟨_, rfl⟩
    · rw [hp, ok_bind]
      exact ih (fun v hv => hA v (by simp [hv])) _

theorem Row.rowOk {vs : List (Pt F)} {nc : Nat} {A : List Int} (h : Row vs.length nc A) : RowOk vs (padRow nc A) := by
  obtain ⟨B, h1, h2⟩ := ccwFace_spec h
  have hB : ∀ v ∈ B, 0 ≤ v ∧ v < vs.length := by
    rcases h2 with rfl | rfl
    · exact h.range
    · intro v hv; exact h.range v (List.mem_reverse.1 hv)
  have hlen : 3 ≤ B.length := by
    rcases h2 with rfl | rfl
    · exact h.three
    · simpa using h.three
  cases B with
  | nil => simp at hlen
  | cons v B =>
    obtain ⟨h0, h0'⟩ := hB v (by simp)
    obtain ⟨p, hp, _⟩ := rdI_of_range h0 h0'
    obtain ⟨b, hb⟩ := boundingBoxLoop_ok (vertices := vs) B (nc - (v :: B).length) (fun v hv => hB v (by simp [hv]))
      ⟨p.x, p.x, p.y, p.y⟩
    refine ⟨_, b, h1, ?_⟩
    unfold padRow boundingBox
    simp only [List.cons_append]
    rw [hp, ok_bind]
    exact hb

theorem ValidFaces.rowOk {vs : List (Pt F)} {fill : Int} {q : IntArr} (hq : ValidFaces vs.length fill q) :
    ∀ r ∈ q.rows.map (fun r => padRow q.ncol (rowIndices fill r)), RowOk vs r := by
  intro r hr
  obtain ⟨r, hr', rfl⟩ := List.mem_map.1 hr
  exact ((hq.rows r hr').row (hq.rect r hr')).rowOk

theorem ValidFaces.padded {n : Nat} {q : IntArr} (hq : ValidFaces n (-1) q) :
    q.rows.map (fun r => padRow q.ncol (rowIndices (-1) r)) = q.rows := by
  conv => rhs; rw [← List.map_id q.rows]
  apply List.map_congr_left
  intro r hr
  exact (padRow_of_valid (hq.rows r hr) (hq.rect r hr)).symm

theorem ValidFaces.single {n : Nat} {fill : Int} {q : IntArr} (hq : ValidFaces n fill q) {r : List Int} (hr : r ∈ q.rows) :
    ValidFaces n fill ⟨q.ncol, [r]⟩ := by
  refine ⟨?_, ?_⟩
  · intro r' hr'
    rw [List.mem_singleton] at hr'
    subst hr'
    exact hq.rect _ hr
  · intro r' hr'
    rw [List.mem_singleton] at hr'
    subst hr'
    exact hq.rows _ hr

theorem cols3_inj {α β : Type} {p p' : List (α × β)}
    (h : (joinIdx [p], [p].flatten.map Prod.fst, [p].flatten.map Prod.snd) =
      (joinIdx [p'], [p'].flatten.map Prod.fst, [p'].flatten.map Prod.snd)) : p = p' := by
  simp only [List.flatten_cons, List.flatten_nil, List.append_nil, Prod.mk.injEq] at h
  have e : ∀ l : List (α × β), l = (l.map Prod.fst).zip (l.map Prod.snd) := by
    intro l
    induction l with
    | nil => rfl
    | cons a l ih => simp only [List.map_cons, List.zip_cons_cons, ← ih]
  rw [e p, e p', h.2.1, h.2.2]

theorem snd_map_ok {α β : Type} (y : M (α × β)) (b : β) : Prod.snd <$> y = .ok b ↔ ∃ a, y = .ok (a, b) := by
  cases y with
  | error e =>
    constructor
    · intro h; cases h
    · rintro ⟨a, h⟩; cases h
  | ok y =>
    constructor
    · intro h
      have : y.2 = b := Except.ok.inj h
      subst this
      exact ⟨y.1, rfl⟩
    · rintro ⟨a, h⟩
      have := Except.ok.inj h
      subst this
      rfl

theorem perm_single : [0].Perm (List.range 1) := by decide

/-! ## Trees of faces -/

section
variable {env : Env F} {vertices : List (Pt F)} {faces : IntArr} {fill nb cpl : Int} {t : CellTree F}

/-- **C89**, `locate_points`. -/
theorem C89_locate_points {points : List (Pt F)} {tol : Option F} {sched : List Nat} (hs : sched.Perm (List.range points.length))
    (hp : points ≠ []) (res : List Int) :
    t.locatePoints env points tol sched = .ok res ↔ res.length = points.length ∧
      ∀ (k : Nat) p v, points[k]? = some p → res[k]? = some v → t.locatePoints env [p] tol [0] = .ok [v] := by
  unfold CellTree.locatePoints
  cases htol : t.tolerance env tol with
  | error e =>
    constructor
    · intro h; cases h
    · rintro ⟨h1, h2⟩
      cases points with
      | nil => exact (hp rfl).elim
      | cons p points =>
        cases res with
        | nil => simp at h1
        | cons v res => have := h2 0 p v rfl rfl; cases this
  | ok tol =>
    simp only [ok_bind]
    have one : ∀ p v, locatePoints [p] t.data tol [0] = .ok [v] ↔ locatePoint p t.data tol = .ok v := by
      intro p v
      unfold locatePoints
      rw [prange_eq_ok (n := [p].length) perm_single]
      constructor
      · rintro ⟨_, h⟩; exact h 0 (by simp)
      · intro h
        refine ⟨rfl, ?_⟩
        intro i hi
        have : i = 0 := by simpa using hi
        subst this
        exact h
    simp only [one]
    unfold locatePoints
    rw [prange_eq_ok hs]
    constructor
    · rintro ⟨h1, h2⟩
      refine ⟨h1, ?_⟩
      intro k p v hk hv
      obtain ⟨hk', rfl⟩ := List.getElem?_eq_some_iff.1 hv
      have := h2 k hk'
      rwa [rd_of_some hk, ok_bind] at this
    · rintro ⟨h1, h2⟩
      refine ⟨h1, ?_⟩
      intro k hk
      have hk' : k < points.length := by omega
      rw [rd_of_some (List.getElem?_eq_getElem hk'), ok_bind]
      exact h2 k _ _ (List.getElem?_eq_getElem hk') (List.getElem?_eq_getElem hk)

/-- The weights of a point in face `v`. -/
def rowWeights (env : Env F) (t : CellTree F) (tol : F) (p : Pt F) (v : Int) : M (List F) :=
  if t.nMaxVert > 3 then
    if v = -1 then .ok (List.replicate t.nMaxVert 0)
    else do
      let face ← rdI t.data.elements v
      let polygon ← copyVertices t.data.vertices face
      wachspressWeights env polygon p t.nMaxVert tol
  else
    if v = -1 then .ok [0, 0, 0]
    else do
      let face ← rdI t.data.elements v
      let triangle ← asTriangle t.data.vertices face
      triangleWeights triangle p

def tableWeights (env : Env F) (t : CellTree F) (tol : F) (points : List (Pt F)) (res : List Int) (sched : List Nat) :
    M (List (List F)) :=
  if t.nMaxVert > 3 then barycentricWachspressWeights env points res t.data.elements t.nMaxVert t.data.vertices tol sched
  else barycentricTriangleWeights points res t.data.elements t.data.vertices sched

theorem barycentricWeights_eq {tol : Option F} {τ : F} (h : t.tolerance env tol = .ok τ) (points : List (Pt F))
    (sched sched1 : List Nat) : t.barycentricWeights env points tol sched sched1 =
      t.locatePoints env points (some τ) sched >>= fun res =>
        tableWeights env t τ points res sched1 >>= fun w => .ok (res, w) := by
  unfold CellTree.barycentricWeights tableWeights
  rw [h, ok_bind]
  congr 1
  funext res
  split <;> rfl

theorem rowWeights_iff {points : List (Pt F)} {res : List Int} {ws : List (List F)} (tol : F) {sched : List Nat}
    (hs : sched.Perm (List.range points.length)) (hl : res.length = points.length) :
    tableWeights env t tol points res sched = .ok ws ↔
    ws.length = points.length ∧ ∀ (k : Nat) p v w, points[k]? = some p → res[k]? = some v → ws[k]? = some w →
      rowWeights env t tol p v = .ok w := by
  have key : ∀ (body : Nat → M (List F)) (init : List F), (∀ (k : Nat) p v, points[k]? = some p → res[k]? = some v →
      body k = rowWeights env t tol p v) → (prange sched points.length init body = .ok ws ↔
      ws.length = points.length ∧ ∀ (k : Nat) p v w, points[k]? = some p → res[k]? = some v → ws[k]? = some w →
      rowWeights env t tol p v = .ok w) := by
    intro body init hb
    rw [prange_eq_ok hs]
    constructor
    · rintro ⟨h1, h2⟩
      refine ⟨h1, ?_⟩
      intro k p v w e1 e2 e3
      obtain ⟨hk, rfl⟩ := List.getElem?_eq_some_iff.1 e3
      rw [← hb k p v e1 e2]
      exact h2 k hk
    · rintro ⟨h1, h2⟩
      refine ⟨h1, ?_⟩
      intro k hk
      have e1 := List.getElem?_eq_getElem (l := points) (i := k) (by omega)
      have e2 := List.getElem?_eq_getElem (l := res) (i := k) (by omega)
      rw [hb k _ _ e1 e2]
      exact h2 k _ _ _ e1 e2 (List.getElem?_eq_getElem hk)
  unfold tableWeights
  split
  · rename_i hm
    refine key _ _ ?_
    intro k p v e1 e2
    rw [rd_of_some e2, ok_bind, rd_of_some e1]
    simp only [ok_bind, rowWeights, if_pos hm]
  · rename_i hm
    refine key _ _ ?_
    intro k p v e1 e2
    rw [rd_of_some e2, ok_bind, rd_of_some e1]
    simp only [ok_bind, rowWeights, if_neg hm]

/-- **C89**, `compute_barycentric_weights`. -/
theorem C89_weights {points : List (Pt F)} {tol : Option F} {sched sched1 : List Nat}
    (hs : sched.Perm (List.range points.length)) (hs1 : sched1.Perm (List.range points.length)) (hp : points ≠ [])
    (res : List Int) (weights : List (List F)) :
    t.barycentricWeights env points tol sched sched1 = .ok (res, weights) ↔
      res.length = points.length ∧ weights.length = points.length ∧
      ∀ (k : Nat) p v w, points[k]? = some p → res[k]? = some v → weights[k]? = some w →
        t.barycentricWeights env [p] tol [0] [0] = .ok ([v], [w]) := by
  cases htol : t.tolerance env tol with
  | error e =>
    unfold CellTree.barycentricWeights
    rw [htol]
    constructor
    · intro h; cases h
    · rintro ⟨h1, h1', h2⟩
      cases points with
      | nil => exact (hp rfl).elim
      | cons p points =>
        cases res with
        | nil => simp at h1
        | cons v res =>
          cases weights with
          | nil => simp at h1'
          | cons w weights => have := h2 0 p v w rfl rfl rfl; cases this
  | ok tol =>
    simp only [barycentricWeights_eq htol]
    have one := C89_locate_points (env := env) (t := t) (tol := some tol) hs hp
    have single : ∀ p v w, (t.locatePoints env [p] (some tol) [0] >>= fun res =>
        tableWeights env t tol [p] res [0] >>= fun w => (.ok (res, w) : M (List Int × List (List F)))) = .ok ([v], [w]) ↔
        t.locatePoints env [p] (some tol) [0] = .ok [v] ∧ rowWeights env t tol p v = .ok w := by
      intro p v w
      rw [bind_eq_ok]
      constructor
      · rintro ⟨idx, h1, h2⟩
        obtain ⟨ws, h3, h4⟩ := bind_eq_ok.1 h2
        obtain ⟨rfl, rfl⟩ := Prod.mk.inj (Except.ok.inj h4)
        exact ⟨h1, ((rowWeights_iff tol perm_single rfl).1 h3).2 0 p v w rfl rfl rfl⟩
      · rintro ⟨h1, h2⟩
        refine ⟨_, h1, ?_⟩
        rw [(rowWeights_iff (points := [p]) (res := [v]) (ws := [w]) tol perm_single rfl).2 ⟨rfl, ?_⟩]
        · rfl
        intro k p' v' w' e1 e2 e3
        cases k with
        | zero =>
          simp only [List.getElem?_cons_zero, Option.some.injEq] at e1 e2 e3
          subst e1 e2 e3
          exact h2
        | succ k => simp at e1
    simp only [single]
    constructor
    · intro h
      obtain ⟨idx, h1, h2⟩ := bind_eq_ok.1 h
      obtain ⟨ws, h3, h4⟩ := bind_eq_ok.1 h2
      obtain ⟨rfl, rfl⟩ := Prod.mk.inj (Except.ok.inj h4)
      obtain ⟨h5, h6⟩ := (one _).1 h1
      obtain ⟨h7, h8⟩ := (rowWeights_iff tol hs1 h5).1 h3
      exact ⟨h5, h7, fun k p v w e1 e2 e3 => ⟨h6 k p v e1 e2, h8 k p v w e1 e2 e3⟩⟩
    · rintro ⟨h5, h7, h8⟩
      have h1 : t.locatePoints env points (some tol) sched = .ok res := by
        refine (one _).2 ⟨h5, fun k p v e1 e2 => ?_⟩
        have hk : k < weights.length := by
          have := (List.getElem?_eq_some_iff.1 e1).1
          omega
        exact (h8 k p v _ e1 e2 (List.getElem?_eq_getElem hk)).1
      rw [h1, ok_bind, (rowWeights_iff tol hs1 h5).2 ⟨h7, fun k p v w e1 e2 e3 => (h8 k p v w e1 e2 e3).2⟩, ok_bind]

variable {n n' : Nat} {sched sched' : List Nat}

/-- **C89**, `locate_boxes`. -/
theorem C89_locate_boxes (hm : GoodMesh env vertices faces fill) (ht : Makes env vertices faces fill nb cpl t)
    (boxes : List (Box F)) (hn : 0 < n) (hs : sched.Perm (List.range n)) (hn' : 0 < n') (hs' : sched'.Perm (List.range n'))
    (r : List Nat × List Nat) :
    t.locateBoxes boxes n sched = .ok r ↔ ∃ parts : List (List Nat), parts.length = boxes.length ∧
      (∀ (k : Nat) b part, boxes[k]? = some b → parts[k]? = some part →
        t.locateBoxes [b] n' sched' = .ok (List.replicate part.length 0, part)) ∧
      r = (queryNumbers parts, parts.flatten) := by
  obtain ⟨bt, hc⟩ := ht.constructed hm
  have := batched (run := fun bs => t.locateBoxes bs n sched) (run1 := fun b => t.locateBoxes [b] n' sched')
    (cols := fun parts => (joinIdx parts, parts.flatten)) (locateBoxes_iff hc.tree boxes hn hs r)
    (fun b _ r => by
      rw [locateBoxes_iff hc.tree [b] hn' hs']
      simp only [forall₂_single]
      constructor
      · rintro ⟨_, ⟨p, h, rfl⟩, h'⟩; exact ⟨p, h, h'⟩
      · rintro ⟨p, h, h'⟩; exact ⟨_, ⟨p, h, rfl⟩, h'⟩)
    (fun p p' h => by simpa using (Prod.mk.inj h).2)
  simpa only [joinIdx_eq, queryNumbers_single, List.flatten_cons, List.flatten_nil, List.append_nil] using this

/-- **C89**, `intersect_boxes`. -/
theorem C89_intersect_boxes (hm : GoodMesh env vertices faces fill) (ht : Makes env vertices faces fill nb cpl t)
    (boxes : List (Box F)) (hn : 0 < n) (hs : sched.Perm (List.range n)) (hn' : 0 < n') (hs' : sched'.Perm (List.range n'))
    {sched2 sched2' : Nat → List Nat} (hs2 : ∀ n, (sched2 n).Perm (List.range n))
    (hs2' : ∀ n, (sched2' n).Perm (List.range n)) (r : List Nat × List Nat × List F) :
    t.intersectBoxes boxes n sched sched2 = .ok r ↔ ∃ parts : List (List (Nat × F)), parts.length = boxes.length ∧
      (∀ (k : Nat) b part, boxes[k]? = some b → parts[k]? = some part → t.intersectBoxes [b] n' sched' sched2' =
        .ok (List.replicate part.length 0, part.map Prod.fst, part.map Prod.snd)) ∧
      r = (queryNumbers parts, parts.flatten.map Prod.fst, parts.flatten.map Prod.snd) := by
  obtain ⟨bt, hc⟩ := ht.constructed hm
  have := batched (run := fun bs => t.intersectBoxes bs n sched sched2) (run1 := fun b => t.intersectBoxes [b] n' sched' sched2')
    (cols := fun parts => (joinIdx parts, parts.flatten.map Prod.fst, parts.flatten.map Prod.snd))
    (intersectBoxes_iff hc.tree boxes hn hs hs2 r)
    (fun b _ r => by
      rw [intersectBoxes_iff hc.tree [b] hn' hs' hs2']
      simp only [forall₂_single]
      constructor
      · rintro ⟨_, ⟨p, h, rfl⟩, h'⟩; exact ⟨p, h, h'⟩
      · rintro ⟨p, h, h'⟩; exact ⟨_, ⟨p, h, rfl⟩, h'⟩)
    (fun p p' h => cols3_inj h)
  simpa only [joinIdx_eq, queryNumbers_single, List.flatten_cons, List.flatten_nil, List.append_nil] using this

/-- **C89**, `locate_faces` (the arrays that are returned). -/
theorem C89_locate_faces (hm : GoodMesh env vertices faces fill) (ht : Makes env vertices faces fill nb cpl t)
    {vs : List (Pt F)} {q : IntArr} (hq : ValidFaces vs.length (-1) q) (hn : 0 < n) (hn' : 0 < n') {sched1 sched1' : List Nat}
    (hs : sched.Perm (List.range q.rows.length)) (hs1 : sched1.Perm (List.range n)) (hs1' : sched1'.Perm (List.range n'))
    {sched2 sched2' : Nat → List Nat} (hs2 : ∀ n, (sched2 n).Perm (List.range n))
    (hs2' : ∀ n, (sched2' n).Perm (List.range n)) (r : List Nat × List Nat) :
    Prod.snd <$> t.locateFaces env vs q n sched sched1 sched2 = .ok r ↔
      ∃ parts : List (List Nat), parts.length = q.rows.length ∧
        (∀ (k : Nat) row part, q.rows[k]? = some row → parts[k]? = some part →
          Prod.snd <$> t.locateFaces env vs ⟨q.ncol, [row]⟩ n' [0] sched1' sched2' =
            .ok (List.replicate part.length 0, part)) ∧
        r = (queryNumbers parts, parts.flatten) := by
  obtain ⟨bt, hc⟩ := ht.constructed hm
  have hrows : ∀ row ∈ q.rows, RowOk vs row := by
    have := hq.rowOk
    rwa [hq.padded] at this
  have key : ∀ (rows : List (List Int)), (∀ row ∈ rows, RowOk vs row) → ∀ {n : Nat}, 0 < n → ∀ {sched sched1 : List Nat}
      {sched2 : Nat → List Nat}, sched.Perm (List.range rows.length) → sched1.Perm (List.range n) →
      (∀ n, (sched2 n).Perm (List.range n)) → ∀ r,
      Prod.snd <$> t.locateFaces env vs ⟨q.ncol, rows⟩ n sched sched1 sched2 = .ok r ↔
        ∃ parts, List.Forall₂ (OneLoc env t bt vs) rows parts ∧ r = (joinIdx parts, parts.flatten) := by
    intro rows hrows n hn sched sched1 sched2 hs hs1 hs2 r
    obtain ⟨f, _, h⟩ := locateFaces_iff (env := env) hc.tree q.ncol hrows hn hs hs1 hs2
    rw [snd_map_ok]
    constructor
    · rintro ⟨a, ha⟩
      obtain ⟨parts, h1, h2⟩ := (h _).1 ha
      exact ⟨parts, h1, (Prod.mk.inj h2).2⟩
    · rintro ⟨parts, h1, rfl⟩
      exact ⟨_, (h _).2 ⟨parts, h1, rfl⟩⟩
  have := batched (run := fun rows => Prod.snd <$> t.locateFaces env vs ⟨q.ncol, rows⟩ n sched sched1 sched2)
    (run1 := fun row => Prod.snd <$> t.locateFaces env vs ⟨q.ncol, [row]⟩ n' [0] sched1' sched2')
    (cols := fun parts => (joinIdx parts, parts.flatten)) (key q.rows hrows hn hs hs1 hs2 r)
    (fun row hrow r => by
      rw [key [row] (by intro x hx; rw [List.mem_singleton] at hx; subst hx; exact hrows _ hrow) hn' perm_single hs1' hs2']
      simp only [forall₂_single]
      constructor
      · rintro ⟨_, ⟨p, h, rfl⟩, h'⟩; exact ⟨p, h, h'⟩
      · rintro ⟨p, h, h'⟩; exact ⟨_, ⟨p, h, rfl⟩, h'⟩)
    (fun p p' h => by simpa using (Prod.mk.inj h).2)
  simpa only [joinIdx_eq, queryNumbers_single, List.flatten_cons, List.flatten_nil, List.append_nil] using this

/-- **C89**, `intersect_faces` (the arrays that are returned). -/
theorem C89_intersect_faces (hm : GoodMesh env vertices faces fill) (ht : Makes env vertices faces fill nb cpl t)
    {vs : List (Pt F)} {q : IntArr} {fillQ : Int} (hq : ValidFaces vs.length fillQ q) (hcol : q.ncol ≤ 32) {H : Heap} {ref : Nat}
    (hH : H[ref]? = some q) (hn : 0 < n) (hn' : 0 < n') {sched1 sched1' : List Nat}
    (hs : sched.Perm (List.range q.rows.length)) (hs1 : sched1.Perm (List.range n)) (hs1' : sched1'.Perm (List.range n'))
    {sched2 sched2' sched3 sched3' : Nat → List Nat} (hs2 : ∀ n, (sched2 n).Perm (List.range n))
    (hs2' : ∀ n, (sched2' n).Perm (List.range n)) (hs3 : ∀ n, (sched3 n).Perm (List.range n))
    (hs3' : ∀ n, (sched3' n).Perm (List.range n)) (r : List Nat × List Nat × List F) :
    Prod.snd <$> t.intersectFacesH env H vs ref fillQ n sched sched1 sched2 sched3 = .ok r ↔
      ∃ parts : List (List (Nat × F)), parts.length = q.rows.length ∧
        (∀ (k : Nat) row part, q.rows[k]? = some row → parts[k]? = some part →
          Prod.snd <$> t.intersectFacesH env [⟨q.ncol, [row]⟩] vs 0 fillQ n' [0] sched1' sched2' sched3' =
            .ok (List.replicate part.length 0, part.map Prod.fst, part.map Prod.snd)) ∧
        r = (queryNumbers parts, parts.flatten.map Prod.fst, parts.flatten.map Prod.snd) := by
  obtain ⟨bt, hc⟩ := ht.constructed hm
  have key : ∀ (q : IntArr), ValidFaces vs.length fillQ q → q.ncol ≤ 32 → ∀ (H : Heap) (ref : Nat), H[ref]? = some q →
      ∀ {n : Nat}, 0 < n → ∀ {sched sched1 : List Nat} {sched2 sched3 : Nat → List Nat},
      sched.Perm (List.range q.rows.length) → sched1.Perm (List.range n) → (∀ n, (sched2 n).Perm (List.range n)) →
      (∀ n, (sched3 n).Perm (List.range n)) → ∀ r,
      Prod.snd <$> t.intersectFacesH env H vs ref fillQ n sched sched1 sched2 sched3 = .ok r ↔
        ∃ parts, List.Forall₂ (fun row part => OneArea env t bt vs (padRow q.ncol (rowIndices fillQ row)) part) q.rows parts ∧
          r = (joinIdx parts, parts.flatten.map Prod.fst, parts.flatten.map Prod.snd) := by
    intro q hq hcol H ref hH n hn sched sched1 sched2 sched3 hs hs1 hs2 hs3 r
    rw [intersectFaces_iff hc.tree (castFaces_ok hq hcol) hq.rowOk hH hn (by simpa using hs) hs1 hs2 hs3 r]
    simp only [List.forall₂_map_left_iff]
  have := batched (bs := q.rows) (run := fun _ => Prod.snd <$> t.intersectFacesH env H vs ref fillQ n sched sched1 sched2 sched3)
    (run1 := fun row => Prod.snd <$> t.intersectFacesH env [⟨q.ncol, [row]⟩] vs 0 fillQ n' [0] sched1' sched2' sched3')
    (cols := fun parts => (joinIdx parts, parts.flatten.map Prod.fst, parts.flatten.map Prod.snd))
    (key q hq hcol H ref hH hn hs hs1 hs2 hs3 r)
    (fun row hrow r => by
      rw [key ⟨q.ncol, [row]⟩ (hq.single hrow) hcol _ 0 rfl hn' perm_single hs1' hs2' hs3']
      simp only [forall₂_single]
      constructor
      · rintro ⟨_, ⟨p, h, rfl⟩, h'⟩; exact ⟨p, h, h'⟩
      · rintro ⟨p, h, h'⟩; exact ⟨_, ⟨p, h, rfl⟩, h'⟩)
    (fun p p' h => cols3_inj h)
  simpa only [joinIdx_eq, queryNumbers_single, List.flatten_cons, List.flatten_nil, List.append_nil] using this

/-- **C89**, `intersect_edges`. Numbers above or below zero are not equal to zero (`ZeroTest`). -/
theorem C89_intersect_edges (hm : GoodMesh env vertices faces fill) (hz : ZeroTest F)
    (ht : Makes env vertices faces fill nb cpl t) (edges : List (Pt F × Pt F)) (hn : 0 < n) (hs : sched.Perm (List.range n))
    (hn' : 0 < n') (hs' : sched'.Perm (List.range n')) (r : List Nat × List Nat × List (Option (Pt F) × Option (Pt F))) :
    t.intersectEdges env edges n sched = .ok r ↔
      ∃ parts : List (List (Nat × Option (Pt F) × Option (Pt F))), parts.length = edges.length ∧
        (∀ (k : Nat) e part, edges[k]? = some e → parts[k]? = some part → t.intersectEdges env [e] n' sched' =
          .ok (List.replicate part.length 0, part.map Prod.fst, part.map Prod.snd)) ∧
        r = (queryNumbers parts, parts.flatten.map Prod.fst, parts.flatten.map Prod.snd) := by
  obtain ⟨bt, hc⟩ := ht.constructed hm
  have := batched (run := fun es => t.intersectEdges env es n sched) (run1 := fun e => t.intersectEdges env [e] n' sched')
    (cols := fun parts => (joinIdx parts, parts.flatten.map Prod.fst, parts.flatten.map Prod.snd))
    (locateEdges_iff (isect := edgeFaceIntersect env t.data) hc.tree hz edges hn hs r)
    (fun e _ r => by
      unfold CellTree.intersectEdges
      rw [locateEdges_iff hc.tree hz [e] hn' hs']
      simp only [forall₂_single]
      constructor
      · rintro ⟨_, ⟨p, h, rfl⟩, h'⟩; exact ⟨p, h, h'⟩
      · rintro ⟨p, h, h'⟩; exact ⟨_, ⟨p, h, rfl⟩, h'⟩)
    (fun p p' h => cols3_inj h)
  simpa only [joinIdx_eq, queryNumbers_single, List.flatten_cons, List.flatten_nil, List.append_nil] using this

end

/-! ## Trees of edges -/

section
variable {env : Env F} {t : CellTree F} {bt : BT} {n n' : Nat} {sched sched' : List Nat}

theorem edgeTree_batch (hc : TreeOk t.data bt) (hz : ZeroTest F) (edges : List (Pt F × Pt F)) (hn : 0 < n)
    (hs : sched.Perm (List.range n)) (hn' : 0 < n') (hs' : sched'.Perm (List.range n'))
    (r : List Nat × List Nat × List (Option (Pt F))) :
    t.intersectEdgesOnEdge env edges n sched = .ok r ↔
      ∃ parts : List (List (Nat × Option (Pt F))), parts.length = edges.length ∧
        (∀ (k : Nat) e part, edges[k]? = some e → parts[k]? = some part → t.intersectEdgesOnEdge env [e] n' sched' =
          .ok (List.replicate part.length 0, part.map Prod.fst, part.map Prod.snd)) ∧
        r = (queryNumbers parts, parts.flatten.map Prod.fst, parts.flatten.map Prod.snd) := by
  have key : ∀ (edges : List (Pt F × Pt F)) {n : Nat}, 0 < n → ∀ {sched : List Nat}, sched.Perm (List.range n) → ∀ r,
      t.intersectEdgesOnEdge env edges n sched = .ok r ↔ ∃ parts, List.Forall₂ (fun e part => ∃ p,
        OneEdge t.data bt (edgeEdgeIntersect env t.data) e p ∧ part = p.map fun x => (x.1, x.2.1)) edges parts ∧
        r = (joinIdx parts, parts.flatten.map Prod.fst, parts.flatten.map Prod.snd) := by
    intro edges n hn sched hs r
    unfold CellTree.intersectEdgesOnEdge
    simp only [forall₂_exists_map, bind_eq_ok]
    have e : ∀ ps : List (List (EHit F)), (joinIdx (ps.map fun p => p.map fun x => (x.1, x.2.1)),
        (ps.map fun p => p.map fun x => (x.1, x.2.1)).flatten.map Prod.fst,
        (ps.map fun p => p.map fun x => (x.1, x.2.1)).flatten.map Prod.snd) =
        (joinIdx ps, ps.flatten.map Prod.fst, (ps.flatten.map Prod.snd).map Prod.fst) := by
      intro ps
      unfold joinIdx
      rw [← List.map_flatten, tagged_map_map]
      simp [Function.comp_def]
    constructor
    · rintro ⟨x, h1, h2⟩
      obtain ⟨ps, h3, rfl⟩ := (locateEdges_iff hc hz edges hn hs x).1 h1
      refine ⟨_, ⟨ps, h3, rfl⟩, ?_⟩
      rw [e, ← Except.ok.inj h2]
    · rintro ⟨_, ⟨ps, h3, rfl⟩, rfl⟩
      refine ⟨_, (locateEdges_iff hc hz edges hn hs _).2 ⟨ps, h3, rfl⟩, ?_⟩
      rw [e]
  have := batched (run := fun es => t.intersectEdgesOnEdge env es n sched)
    (run1 := fun e => t.intersectEdgesOnEdge env [e] n' sched')
    (cols := fun parts => (joinIdx parts, parts.flatten.map Prod.fst, parts.flatten.map Prod.snd))
    (key edges hn hs r)
    (fun e _ r => by
      rw [key [e] hn' hs']
      simp only [forall₂_single]
      constructor
      · rintro ⟨_, ⟨p, h, rfl⟩, h'⟩; exact ⟨p, h, h'⟩
      · rintro ⟨p, h, h'⟩; exact ⟨_, ⟨p, h, rfl⟩, h'⟩)
    (fun p p' h => cols3_inj h)
  simpa only [joinIdx_eq, queryNumbers_single, List.flatten_cons, List.flatten_nil, List.append_nil] using this

end

theorem Fl.zeroTest : ZeroTest Fl := by
  intro x h
  have h0 : (0 : Fl) = fin 0 := rfl
  show (Fl.le x 0 && Fl.le 0 x) = false
  simp only [lt_def, h0] at h ⊢
  cases x <;> simp [Fl.le, Fl.lt] at h ⊢
  grind

theorem zeroTest {K : Type} [Field K] [LinearOrder K] [IsStrictOrderedRing K] : ZeroTest K := by
  rintro x (h | h)
  · exact beq_eq_false_iff_ne.2 h.ne'
  · exact beq_eq_false_iff_ne.2 h.ne

/-- **C89**, `EdgeCellTree2d.intersect_edges` in exact arithmetic. -/
theorem C89_edge_tree {K : Type} [Field K] [LinearOrder K] [IsStrictOrderedRing K] {env : Env K} {vertices : List (Pt K)}
    {rows : IntArr} {nb cpl : Int} {t : CellTree K} (hv : ValidEdges vertices.length rows)
    (ht : EdgeCellTree.init env vertices rows nb cpl = .ok t) (edges : List (Pt K × Pt K)) {n n' : Nat}
    {sched sched' : List Nat} (hn : 0 < n) (hs : sched.Perm (List.range n)) (hn' : 0 < n') (hs' : sched'.Perm (List.range n'))
    (r : List Nat × List Nat × List (Option (Pt K))) :
    t.intersectEdgesOnEdge env edges n sched = .ok r ↔
      ∃ parts : List (List (Nat × Option (Pt K))), parts.length = edges.length ∧
        (∀ (k : Nat) e part, edges[k]? = some e → parts[k]? = some part → t.intersectEdgesOnEdge env [e] n' sched' =
          .ok (List.replicate part.length 0, part.map Prod.fst, part.map Prod.snd)) ∧
        r = (queryNumbers parts, parts.flatten.map Prod.fst, parts.flatten.map Prod.snd) := by
  obtain ⟨bt, τ, _, hc⟩ := EdgeCellTree.init_spec hv ht
  exact edgeTree_batch hc.tree zeroTest edges hn hs hn' hs' r

/-- **C89**, `EdgeCellTree2d.intersect_edges` in binary64. -/
theorem C89_edge_tree_float {env : Env Fl} {vertices : List (Pt Fl)} {rows : IntArr} {nb cpl : Int} {t : CellTree Fl}
    (hv : ValidEdges vertices.length rows) (hrep : ∀ v ∈ vertices, Fl.RepPt v) (hmax : env.floatMax ≠ .nan)
    (hmin : env.floatMin ≠ .nan) (ht0 : (0 : Fl) ≤ env.minTol)
    (ht : EdgeCellTree.init env vertices rows nb cpl = .ok t) (edges : List (Pt Fl × Pt Fl)) {n n' : Nat}
    {sched sched' : List Nat} (hn : 0 < n) (hs : sched.Perm (List.range n)) (hn' : 0 < n') (hs' : sched'.Perm (List.range n'))
    (r : List Nat × List Nat × List (Option (Pt Fl))) :
    t.intersectEdgesOnEdge env edges n sched = .ok r ↔
      ∃ parts : List (List (Nat × Option (Pt Fl))), parts.length = edges.length ∧
        (∀ (k : Nat) e part, edges[k]? = some e → parts[k]? = some part → t.intersectEdgesOnEdge env [e] n' sched' =
          .ok (List.replicate part.length 0, part.map Prod.fst, part.map Prod.snd)) ∧
        r = (queryNumbers parts, parts.flatten.map Prod.fst, parts.flatten.map Prod.snd) := by
  obtain ⟨bt, τ, _, hc⟩ := edgeTree_fl hv hrep hmax hmin ht0 ht
  exact edgeTree_batch hc.tree Fl.zeroTest edges hn hs hn' hs' r

/-! ## The hypotheses can be met -/

/-- Three boxes, the second of them far away (`Ex.qGood`: the mesh is good). -/
example : GoodMesh Ex.qEnv Ex.qVerts Ex.faces (-999) ∧ ∃ t, Makes Ex.qEnv Ex.qVerts Ex.faces (-999) 4 1 t ∧
    t.intersectBoxes [⟨1, 3, 1, 3⟩, ⟨9, 10, 9, 10⟩, ⟨3, 5, 0, 1⟩] 2 [1, 0] List.range =
      .ok ([0, 0, 0, 0, 2, 2], [2, 1, 3, 0, 2, 1], [1 / 2, 1 / 2, 3 / 4, 1, 1 / 2, 1 / 2]) ∧
    t.intersectBoxes [⟨1, 3, 1, 3⟩] 1 [0] List.range = .ok ([0, 0, 0, 0], [2, 1, 3, 0], [1 / 2, 1 / 2, 3 / 4, 1]) ∧
    t.intersectBoxes [⟨9, 10, 9, 10⟩] 1 [0] List.range = .ok ([], [], []) ∧
    t.intersectBoxes [⟨3, 5, 0, 1⟩] 1 [0] List.range = .ok ([0, 0], [2, 1], [1 / 2, 1 / 2]) := by
  refine ⟨Ex.qGood, ?_⟩
  obtain ⟨t, h1, h2⟩ := bind_eq_ok.1 (show (CellTree.init Ex.qEnv Ex.qVerts Ex.faces (-999) 4 1 [2, 0, 3, 1] >>= fun t =>
    .ok (decide (
    t.intersectBoxes [⟨1, 3, 1, 3⟩, ⟨9, 10, 9, 10⟩, ⟨3, 5, 0, 1⟩] 2 [1, 0] List.range =
      .ok ([0, 0, 0, 0, 2, 2], [2, 1, 3, 0, 2, 1], [1 / 2, 1 / 2, 3 / 4, 1, 1 / 2, 1 / 2]) ∧
    t.intersectBoxes [⟨1, 3, 1, 3⟩] 1 [0] List.range = .ok ([0, 0, 0, 0], [2, 1, 3, 0], [1 / 2, 1 / 2, 3 / 4, 1]) ∧
    t.intersectBoxes [⟨9, 10, 9, 10⟩] 1 [0] List.range = .ok ([], [], []) ∧
    t.intersectBoxes [⟨3, 5, 0, 1⟩] 1 [0] List.range = .ok ([0, 0], [2, 1], [1 / 2, 1 / 2])))) = .ok true
      by decide +kernel)
  exact ⟨t, ⟨[2, 0, 3, 1], by decide, h1⟩, of_decide_eq_true (Except.ok.inj h2)⟩

example : queryNumbers [[2, 1, 3, 0], [], [2, 1]] = [0, 0, 0, 0, 2, 2] := by decide

example : ZeroTest Fl ∧ ZeroTest ℚ := ⟨Fl.zeroTest, zeroTest⟩

end Celltree
