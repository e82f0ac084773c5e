import Verif.Proofs.Mesh

/-!
# What is known about an object after `CellTree2d.__init__`
-/

set_option linter.unusedSectionVars false

namespace Celltree

theorem mapM_exists {α β : Type} {f : α → M β} {P : α → β → Prop} (l : List α) (h : ∀ a ∈ l, ∃ b, f a = .ok b ∧ P a b) :
    ∃ bs, l.mapM f = .ok bs ∧ bs.length = l.length ∧
      ∀ (i : Nat) a, l[i]? = some a → ∃ b, bs[i]? = some b ∧ f a = .ok b ∧ P a b := by
  induction l with
  | nil => exact ⟨[], rfl, rfl, by simp⟩
  | cons a l ih =>
    obtain ⟨b, h1, h2⟩ := h a (by simp)
    obtain ⟨bs, h3, h4, h5⟩ := ih (fun a ha => h a (by simp [ha]))
    refine ⟨b :: bs, ?_, by simp [h4], ?_⟩
    · rw [List.mapM_cons, h1, ok_bind, h3, ok_bind]; rfl
    · intro i a' hi
      cases i with
      | zero => simp at hi; subst hi; exact ⟨b, by simp, h1, h2⟩
      | succ i => simpa using h5 i a' (by simpa using hi)

theorem mapM_eq_ok {α β : Type} {f : α → M β} {l : List α} {bs : List β} (h : l.mapM f = .ok bs) :
    bs.length = l.length ∧ ∀ (i : Nat) a, l[i]? = some a → ∃ b, bs[i]? = some b ∧ f a = .ok b := by
  induction l generalizing bs with
  | nil => cases h; simp
  | cons a l ih =>
    rw [List.mapM_cons] at h
    obtain ⟨b, h1, h⟩ := bind_eq_ok.1 h
    obtain ⟨bs', h2, h⟩ := bind_eq_ok.1 h
    cases h
    obtain ⟨h3, h4⟩ := ih h2
    refine ⟨by simp [h3], ?_⟩
    intro i a' hi
    cases i with
    | zero => simp at hi; subst hi; exact ⟨b, by simp, h1⟩
    | succ i => simpa using h4 i a' (by simpa using hi)

theorem mem_of_getElem?_corr {α β : Type} {l : List α} {bs : List β} (hl : bs.length = l.length) {b : β} (hb : b ∈ bs) :
    ∃ (i : Nat) (a : α), l[i]? = some a ∧ bs[i]? = some b := by
  obtain ⟨i, hi⟩ := List.getElem?_of_mem hb
  have := (List.getElem?_eq_some_iff.1 hi).1
  exact ⟨i, l[i], by simp, hi⟩

variable {F : Type} [Add F] [Sub F] [Mul F] [Div F] [Zero F] [One F] [Neg F] [IntCast F]
  [LT F] [LE F] [BEq F] [DecidableLT F] [DecidableLE F]

/-- The faces of a well-formed table in the notation of the code. -/
theorem castFaces_spec {n : Nat} {fill : Int} {faces : IntArr} (h : ValidFaces n fill faces) :
    castFaces faces fill =
      if faces.ncol > maxNVertex then .error .valueError
      else .ok ⟨faces.ncol, faces.rows.map fun r => padRow faces.ncol (rowIndices fill r)⟩ := by
  unfold castFaces
  split
  · rfl
  · split
    · congr 2
      apply List.map_congr_left
      intro r hr
      exact replaceFill_row (h.rows r hr) (h.rect r hr)
    · rename_i hf
      have hf : fill = fillValue := Classical.not_not.1 hf
      subst hf
      congr 1
      obtain ⟨ncol, rows⟩ := faces
      congr 1
      conv => lhs; rw [← List.map_id rows]
      apply List.map_congr_left
      intro r hr
      exact padRow_of_valid (h.rows r hr) (h.rect r hr)

/-- Rows `rows` are those of the table, each possibly reversed. -/
structure Oriented (vertices : List (Pt F)) (fill : Int) (faces : IntArr) (rows : List (List Int)) : Prop where
  length : rows.length = faces.rows.length
  row : ∀ (i : Nat) r, faces.rows[i]? = some r → ∃ B, rows[i]? = some (padRow faces.ncol B) ∧
    (B = rowIndices fill r ∨ B = (rowIndices fill r).reverse) ∧ Row vertices.length faces.ncol B ∧
    ccwFace vertices (padRow faces.ncol (rowIndices fill r)) = .ok (padRow faces.ncol B)

theorem counterClockwise_oriented {vertices : List (Pt F)} {fill : Int} {faces : IntArr}
    (h : ValidFaces vertices.length fill faces) {sched : List Nat}
    (hs : sched.Perm (List.range faces.rows.length)) :
    ∃ rows, counterClockwise vertices (faces.rows.map fun r => padRow faces.ncol (rowIndices fill r)) sched = .ok rows ∧
      Oriented vertices fill faces rows := by
  have hR : ∀ r ∈ faces.rows, Row vertices.length faces.ncol (rowIndices fill r) := fun r hr =>
    (h.rows r hr).row (h.rect r hr)
  have hex : ∀ p : List Int, ∃ f : List Int,
      p ∈ (faces.rows.map fun r => padRow faces.ncol (rowIndices fill r)) → ccwFace vertices p = .ok f := by
    intro p
    by_cases hp : p ∈ (faces.rows.map fun r => padRow faces.ncol (rowIndices fill r))
    · obtain ⟨r, hr, rfl⟩ := List.mem_map.1 hp
      obtain ⟨B, hB, _⟩ := ccwFace_spec (hR r hr)
      exact ⟨_, fun _ => hB⟩
    · exact ⟨[], fun h => (hp h).elim⟩
  obtain ⟨f, hf⟩ := Classical.axiomOfChoice hex
  refine ⟨_, counterClockwise_ok (by simpa using hs) f hf, by simp, ?_⟩
  intro i r hi
  have hr := List.mem_of_getElem? hi
  obtain ⟨B, hB, hB'⟩ := ccwFace_spec (hR r hr)
  refine ⟨B, ?_, hB', ?_, hB⟩
  · have := hf _ (List.mem_map_of_mem hr)
    rw [hB] at this
    have this := Except.ok.inj this
    simp [hi, this]
  · rcases hB' with rfl | rfl
    · exact hR r hr
    · exact (hR r hr).reverse

/-- The vertices of the stored row are those of the face, in the same or reverse order. -/
theorem facePts_oriented {vertices : List (Pt F)} {fill : Int} {ncol : Nat} {r B : List Int}
    (hR : Row vertices.length ncol B) (hB : B = rowIndices fill r ∨ B = (rowIndices fill r).reverse) :
    facePts vertices fillValue (padRow ncol B) = facePts vertices fill r ∨
      facePts vertices fillValue (padRow ncol B) = (facePts vertices fill r).reverse := by
  unfold facePts
  rw [hR.rowIndices]
  rcases hB with rfl | rfl
  · exact Or.inl rfl
  · right; rw [List.filterMap_reverse]

theorem mem_facePts_oriented {vertices : List (Pt F)} {fill : Int} {ncol : Nat} {r B : List Int}
    (hR : Row vertices.length ncol B) (hB : B = rowIndices fill r ∨ B = (rowIndices fill r).reverse) (p : Pt F) :
    p ∈ facePts vertices fillValue (padRow ncol B) ↔ p ∈ facePts vertices fill r := by
  rcases facePts_oriented hR hB with h | h <;> rw [h]
  simp

section
variable [NumOrd F]
open NumOrd

/-- No vertex of a face has a NaN coordinate. -/
def NumFaces (vertices : List (Pt F)) (fill : Int) (faces : IntArr) : Prop :=
  ∀ r ∈ faces.rows, NumPts (facePts vertices fill r)

/-- Boxes `coords` are the bounding boxes of the faces. -/
structure BoxesOf (vertices : List (Pt F)) (fill : Int) (faces : IntArr) (coords : List (Box F)) : Prop where
  length : coords.length = faces.rows.length
  box : ∀ (i : Nat) r, faces.rows[i]? = some r → ∃ b, coords[i]? = some b ∧ IsBBox (facePts vertices fill r) b

theorem buildFaceBboxes_spec {vertices : List (Pt F)} {fill : Int} {faces : IntArr} {rows : List (List Int)}
    (h : Oriented vertices fill faces rows) (hn : NumFaces vertices fill faces) :
    ∃ coords, buildFaceBboxes rows vertices = .ok coords ∧ BoxesOf vertices fill faces coords := by
  have key : ∀ p ∈ rows, ∃ b, boundingBox p vertices = .ok b ∧
      ∀ (i : Nat) r, faces.rows[i]? = some r → rows[i]? = some p → IsBBox (facePts vertices fill r) b := by
    intro p hp
    obtain ⟨i, r, hi, hi'⟩ := mem_of_getElem?_corr h.length hp
    obtain ⟨B, b1, b2, b3, b4⟩ := h.row i r hi
    rw [hi'] at b1
    cases b1
    have hnum : NumPts (B.filterMap fun v => vertices[v.toNat]?) := by
      intro q hq
      have : q ∈ facePts vertices fillValue (padRow faces.ncol B) := by
        unfold facePts; rw [b3.rowIndices]; exact hq
      exact hn r (List.mem_of_getElem? hi) q ((mem_facePts_oriented b3 b2 q).1 this)
    obtain ⟨b, hb, hb'⟩ := boundingBox_spec b3 hnum
    refine ⟨b, hb, ?_⟩
    intro j r' hj hj'
    obtain ⟨B', c1, c2, c3, c4⟩ := h.row j r' hj
    rw [hj'] at c1
    have hpp : padRow faces.ncol B = padRow faces.ncol B' := Option.some.inj c1
    apply hb'.of_mem
    intro q
    rw [← mem_facePts_oriented c3 c2 q, ← hpp]
    unfold facePts
    rw [b3.rowIndices]
  obtain ⟨bs, h1, h2, h3⟩ := mapM_exists rows key
  refine ⟨bs, h1, by rw [h2, h.length], ?_⟩
  intro i r hi
  obtain ⟨B, b1, _⟩ := h.row i r hi
  obtain ⟨b, c1, _, c3⟩ := h3 i _ b1
  exact ⟨b, c1, c3 i r hi b1⟩

theorem BoxesOf.num {vertices : List (Pt F)} {fill : Int} {faces : IntArr} {coords : List (Box F)}
    (h : BoxesOf vertices fill faces coords) (hn : NumFaces vertices fill faces) :
    ∀ b ∈ coords, ∀ dim, num (b.lo dim) ∧ num (b.hi dim) := by
  intro b hb dim
  obtain ⟨i, r, hi, hi'⟩ := mem_of_getElem?_corr h.length hb
  obtain ⟨b', c1, c2⟩ := h.box i r hi
  rw [hi'] at c1
  cases c1
  exact c2.num (hn r (List.mem_of_getElem? hi)) dim

/-- The tree box. -/
structure TreeBox (coords : List (Box F)) (b : Box F) : Prop where
  contains : ∀ c ∈ coords, b.xmin ≤ c.xmin ∧ c.xmax ≤ b.xmax ∧ b.ymin ≤ c.ymin ∧ c.ymax ≤ b.ymax
  left : ∃ c ∈ coords, b.xmin = c.xmin
  right : ∃ c ∈ coords, b.xmax = c.xmax
  bottom : ∃ c ∈ coords, b.ymin = c.ymin
  top : ∃ c ∈ coords, b.ymax = c.ymax

theorem bboxTree_spec {coords : List (Box F)} (hne : coords ≠ [])
    (hn : ∀ b ∈ coords, ∀ dim, num (b.lo dim) ∧ num (b.hi dim)) :
    ∃ b, bboxTree coords = .ok b ∧ TreeBox coords b := by
  cases coords with
  | nil => exact (hne rfl).elim
  | cons c rest =>
    obtain ⟨_, h1, h2, h3, h4, h5⟩ := bboxTree_foldl rest c (hn c (by simp)) (fun d hd => hn d (by simp [hd]))
    exact ⟨_, rfl, h1, h2, h3, h4, h5⟩

theorem TreeOk.of_built {env : Env F} {nBuckets cpl : Nat} {tree : Tree F} {bt : BT}
    (h : Built env tree.bbCoords.length tree.bbCoords nBuckets cpl tree.nodes tree.bbIndices bt)
    (he : tree.elements.length = tree.bbCoords.length) (hb : TreeBox tree.bbCoords tree.bbox) : TreeOk tree bt :=
  ⟨h.perm, h.ok, h.root, h.lo, h.hi, h.keys, he, hb.contains⟩

/-- Everything that is known about an object `t` made from a mesh. -/
structure Constructed (env : Env F) (vertices : List (Pt F)) (faces : IntArr) (fill : Int) (nBuckets cellsPerLeaf : Nat)
    (t : CellTree F) (bt : BT) : Prop where
  tree : TreeOk t.data bt
  built : Built env t.data.bbCoords.length t.data.bbCoords nBuckets cellsPerLeaf t.data.nodes t.data.bbIndices bt
  vertices_eq : t.data.vertices = vertices
  elements : Oriented vertices fill faces t.data.elements
  boxes : BoxesOf vertices fill faces t.data.bbCoords
  bbox : TreeBox t.data.bbCoords t.data.bbox
  nMaxVert : t.nMaxVert = faces.ncol
  nBuckets_eq : t.nBuckets = nBuckets
  cellsPerLeaf_eq : t.data.cellsPerLeaf = cellsPerLeaf
  distances : t.bbDistances = t.data.bbCoords.map (bboxDistance env)

/-- Errors of `__init__` on a well-formed mesh: the documented `ValueError`s, no faces at all, or a box that no bucket
accepts. -/
def InitErr (env : Env F) (vertices : List (Pt F)) (faces : IntArr) (fill nBuckets cellsPerLeaf : Int) (e : Err) : Prop :=
  (e = .valueError ∧ (nBuckets < 2 ∨ cellsPerLeaf < 1 ∨ faces.ncol > maxNVertex ∨ faces.rows = [])) ∨
  (2 ≤ nBuckets ∧ 1 ≤ cellsPerLeaf ∧ ∃ coords, BoxesOf vertices fill faces coords ∧
    BuildErr ⟨env, coords, nBuckets.toNat, cellsPerLeaf.toNat, pessimisticNNodes faces.rows.length⟩ e)

theorem CellTree.init_spec (env : Env F) {vertices : List (Pt F)} {faces : IntArr} {fill : Int}
    (nBuckets cellsPerLeaf : Int) (hv : ValidFaces vertices.length fill faces) (hn : NumFaces vertices fill faces)
    (hmax : num env.floatMax) (hmin : num env.floatMin) {sched : List Nat}
    (hs : sched.Perm (List.range faces.rows.length)) :
    Sat (InitErr env vertices faces fill nBuckets cellsPerLeaf)
      (fun t => 2 ≤ nBuckets ∧ 1 ≤ cellsPerLeaf ∧ faces.ncol ≤ maxNVertex ∧ faces.rows ≠ [] ∧
        ∃ bt, Constructed env vertices faces fill nBuckets.toNat cellsPerLeaf.toNat t bt)
      (CellTree.init env vertices faces fill nBuckets cellsPerLeaf sched) := by
  unfold CellTree.init
  by_cases h1 : nBuckets < 2
  · rw [if_pos h1]; exact Or.inl ⟨rfl, Or.inl h1⟩
  rw [if_neg h1]
  by_cases h2 : cellsPerLeaf < 1
  · rw [if_pos h2]; exact Or.inl ⟨rfl, Or.inr (Or.inl h2)⟩
  rw [if_neg h2, castFaces_spec hv]
  by_cases h3 : faces.ncol > maxNVertex
  · rw [if_pos h3]; exact Or.inl ⟨rfl, Or.inr (Or.inr (Or.inl h3))⟩
  rw [if_neg h3, ok_bind]
  obtain ⟨rows, hr, ho⟩ := counterClockwise_oriented hv hs
  simp only
  rw [hr, ok_bind]
  unfold CellTree.ofFaces
  obtain ⟨coords, hc, hbx⟩ := buildFaceBboxes_spec ho hn
  simp only
  rw [hc, ok_bind]
  have hcn := hbx.num hn
  rw [ho.length]
  have hI := initTree_spec env faces.rows.length coords nBuckets.toNat cellsPerLeaf.toNat ⟨hcn, hmax, hmin⟩ hbx.length
  cases hi : initTree env faces.rows.length coords nBuckets.toNat cellsPerLeaf.toNat with
  | error e =>
    rw [hi] at hI
    exact Or.inr ⟨by omega, by omega, coords, hbx, hI⟩
  | ok r =>
    obtain ⟨nodes, idx⟩ := r
    rw [hi] at hI
    obtain ⟨bt, hbt⟩ := hI
    rw [ok_bind]
    simp only
    by_cases hne : faces.rows = []
    · have : coords = [] := List.eq_nil_of_length_eq_zero (by rw [hbx.length, hne]; rfl)
      rw [this]
      exact Or.inl ⟨rfl, Or.inr (Or.inr (Or.inr hne))⟩
    · have hne' : coords ≠ [] := by
        intro h; apply hne; apply List.eq_nil_of_length_eq_zero; rw [← hbx.length, h]; rfl
      obtain ⟨b, hb, htb⟩ := bboxTree_spec hne' hcn
      rw [hb, ok_bind]
      have hbt' : Built env coords.length coords nBuckets.toNat cellsPerLeaf.toNat nodes idx bt := by
        rw [hbx.length]; exact hbt
      refine ⟨by omega, by omega, by omega, hne, bt, ?_⟩
      have hlen : rows.length = coords.length := by rw [ho.length, hbx.length]
      exact ⟨TreeOk.of_built (tree := ⟨rows, vertices, nodes, idx, coords, b, cellsPerLeaf.toNat⟩) hbt' hlen htb, hbt',
        rfl, ho, hbx, htb, rfl, rfl, rfl, rfl⟩

end

end Celltree
