import Verif.Proofs.BuildOk
import Verif.Props.Memory

/-!
# When construction succeeds: C12, C58
-/

set_option linter.unusedSectionVars false

namespace Celltree

section
variable {K : Type} [Field K] [LinearOrder K] [IsStrictOrderedRing K]
variable {env : Env K} {vertices : List (Pt K)} {faces edges : IntArr} {fill nBuckets cellsPerLeaf : Int}

/-- **C12** (exact arithmetic): the constructor returns for every non-empty mesh in which no face has all its vertices on a
vertical or on a horizontal line, for all admissible parameters. The last hypothesis says that the largest number of the
arithmetic is large compared to the mesh. -/
theorem C12_construction_succeeds (hm : GoodMesh env vertices faces fill) {sched : List Nat}
    (hs : sched.Perm (List.range faces.rows.length)) (hb : 2 ≤ nBuckets) (hc : 1 ≤ cellsPerLeaf) (hcol : faces.ncol ≤ 32)
    (hne : faces.rows ≠ [])
    (hwide : ∀ r ∈ faces.rows, ∃ u ∈ facePts vertices fill r, ∃ v ∈ facePts vertices fill r, u.x < v.x)
    (hhigh : ∀ r ∈ faces.rows, ∃ u ∈ facePts vertices fill r, ∃ v ∈ facePts vertices fill r, u.y < v.y)
    (hmax : (nBuckets : K) * (faces.rows.length : K) < env.floatMax) :
    ∃ t, CellTree.init env vertices faces fill nBuckets cellsPerLeaf sched = .ok t := by
  have h := CellTree.init_spec env nBuckets cellsPerLeaf hm.valid hm.num hm.max hm.min hs
  cases hi : CellTree.init env vertices faces fill nBuckets cellsPerLeaf sched with
  | ok t => exact ⟨t, rfl⟩
  | error e =>
    rw [hi] at h
    exfalso
    rcases h with ⟨_, h⟩ | ⟨_, _, coords, hbx, he⟩
    · rcases h with h | h | h | h
      · omega
      · omega
      · unfold maxNVertex at h; omega
      · exact hne h
    · refine not_buildErr (by simp only; omega) ?_ ?_ he
      · intro b hbm dim
        simp only at hbm
        obtain ⟨k, hk⟩ := List.mem_iff_getElem?.1 hbm
        have hlt := (List.getElem?_eq_some_iff.1 hk).1
        rw [hbx.length] at hlt
        obtain ⟨b', h1, h2⟩ := hbx.box k _ (List.getElem?_eq_getElem hlt)
        rw [hk] at h1
        cases h1
        cases dim with
        | false =>
          obtain ⟨u, hu, v, hv, huv⟩ := hwide _ (List.getElem_mem hlt)
          exact lt_of_le_of_lt (h2.contains u hu).1 (lt_of_lt_of_le huv (h2.contains v hv).2.1)
        | true =>
          obtain ⟨u, hu, v, hv, huv⟩ := hhigh _ (List.getElem_mem hlt)
          exact lt_of_le_of_lt (h2.contains u hu).2.2.1 (lt_of_lt_of_le huv (h2.contains v hv).2.2.2)
      · simp only
        rw [hbx.length]
        have : ((nBuckets.toNat : Nat) : K) = (nBuckets : K) := by
          have : ((nBuckets.toNat : Int) : K) = (nBuckets : K) := by rw [Int.toNat_of_nonneg (by omega)]
          rw [← this, Int.cast_natCast]
        rw [this]
        exact hmax

/-- **C58** (exact arithmetic; partial: in binary64 it fails, see below): the constructor of an edge tree returns for every
network with at least one edge, also if edges are axis-aligned or of length zero. -/
theorem C58_edge_construction_partial (hv : ValidEdges vertices.length edges) (hne : edges.rows ≠ []) (hb : 2 ≤ nBuckets)
    (hc : 1 ≤ cellsPerLeaf) (hmin : 0 < env.minTol)
    (hmax : (nBuckets : K) * (edges.rows.length : K) < env.floatMax) :
    ∃ t, EdgeCellTree.init env vertices edges nBuckets cellsPerLeaf = .ok t := by
  unfold EdgeCellTree.init
  rw [if_neg (by omega), if_neg (by omega)]
  have hvne : vertices ≠ [] := by
    rintro rfl
    obtain ⟨r, hr⟩ := List.exists_mem_of_ne_nil _ hne
    obtain ⟨v, w, _, h1, h2, _⟩ := hv r hr
    simp at h2; omega
  have hτ : ∃ τ, globalTolerance env vertices = .ok τ := by
    obtain ⟨p, l, rfl⟩ := List.exists_cons_of_ne_nil hvne
    exact ⟨_, rfl⟩
  obtain ⟨τ, hτ⟩ := hτ
  have hpos : 0 < τ := lt_of_lt_of_le hmin (globalTolerance_spec hτ).1
  rw [hτ, ok_bind]
  have hco : ∃ coords, buildEdgeBboxes edges.rows vertices τ = .ok coords ∧ coords.length = edges.rows.length ∧
      ∀ b ∈ coords, ∀ dim, b.lo dim < b.hi dim := by
    have hall : ∀ r ∈ edges.rows, ∃ p q, edgeBoundingBox r vertices τ = .ok (wideBox τ p q) := by
      intro r hr
      obtain ⟨v, w, rfl, h1, h2, h3, h4⟩ := hv r hr
      exact ⟨_, _, edgeBoundingBox_spec h1 h3 (List.getElem?_eq_getElem (show v.toNat < vertices.length by omega))
        (List.getElem?_eq_getElem (show w.toNat < vertices.length by omega)) τ⟩
    obtain ⟨coords, hco, _⟩ := mapM_exists (f := fun r => edgeBoundingBox r vertices τ) (P := fun _ _ => True) edges.rows
      (fun r hr => let ⟨_, _, h⟩ := hall r hr; ⟨_, h, trivial⟩)
    obtain ⟨hlen, hel⟩ := mapM_eq_ok hco
    refine ⟨coords, hco, hlen, ?_⟩
    intro b hbm dim
    obtain ⟨k, hk⟩ := List.mem_iff_getElem?.1 hbm
    have hlt := (List.getElem?_eq_some_iff.1 hk).1
    rw [hlen] at hlt
    obtain ⟨b', e1, e2⟩ := hel k _ (List.getElem?_eq_getElem hlt)
    rw [hk] at e1
    cases e1
    obtain ⟨p, q, h⟩ := hall _ (List.getElem_mem hlt)
    rw [h] at e2
    cases e2
    have a1 := min_le_max (a := p.x) (b := q.x)
    have a2 := min_le_max (a := p.y) (b := q.y)
    cases dim <;> simp only [Box.lo, Box.hi, wideBox, if_true, Bool.false_eq_true, if_false] <;> linarith
  obtain ⟨coords, h1, h2, h3⟩ := hco
  rw [h1, ok_bind]
  have hn : ∀ b ∈ coords, ∀ dim, NumOrd.num (b.lo dim) ∧ NumOrd.num (b.hi dim) := fun _ _ _ => ⟨trivial, trivial⟩
  have hS := initTree_spec env edges.rows.length coords nBuckets.toNat cellsPerLeaf.toNat ⟨hn, trivial, trivial⟩ h2
  have hcne : coords ≠ [] := by
    rintro rfl
    exact hne (List.length_eq_zero_iff.1 h2.symm)
  obtain ⟨bb, hbb, _⟩ := bboxTree_spec hcne hn
  cases hI : initTree env edges.rows.length coords nBuckets.toNat cellsPerLeaf.toNat with
  | ok r =>
    rw [ok_bind, hbb]
    exact ⟨_, rfl⟩
  | error e =>
    rw [hI] at hS
    exfalso
    refine not_buildErr (by simp only; omega) h3 ?_ hS
    simp only
    rw [h2]
    have : ((nBuckets.toNat : Nat) : K) = (nBuckets : K) := by
      have : ((nBuckets.toNat : Int) : K) = (nBuckets : K) := by rw [Int.toNat_of_nonneg (by omega)]
      rw [← this, Int.cast_natCast]
    rw [this]
    exact hmax

end

/-! ## Degenerate faces and rounding -/

namespace Ex

/-- Two unit squares and a triangle without width at the right end. -/
def thinVerts : List (Pt ℚ) :=
  [⟨0, 0⟩, ⟨1, 0⟩, ⟨1, 1⟩, ⟨0, 1⟩, ⟨2, 0⟩, ⟨2, 1⟩, ⟨3, 0⟩, ⟨3, 1⟩, ⟨3, 1 / 2⟩]

def thinFaces : IntArr := ⟨4, [[0, 1, 2, 3], [1, 4, 5, 2], [6, 7, 8, -1]]⟩

/-- Faces without width only. -/
def flatFaces : IntArr := ⟨3, [[6, 7, 8], [6, 8, 7], [7, 8, 6]]⟩

/-- Binary64: two triangles, and one that is one unit in the last place wide, at the right end. -/
def sliverVerts : List (Pt Fl) :=
  let y0 : Fl := .fin 0
  let y1 : Fl := .fin 1
  [⟨.fin (-3), y0⟩, ⟨.fin (-2), y0⟩, ⟨.fin (-3), y1⟩, ⟨.fin 0, y0⟩, ⟨.fin 1, y0⟩, ⟨.fin 0, y1⟩,
    ⟨.fin (4953959590107546 / 2 ^ 52), y0⟩, ⟨.fin (4953959590107546 / 2 ^ 52), y1⟩, ⟨.fin (4953959590107545 / 2 ^ 52), y1⟩]

def sliverFaces : IntArr := ⟨3, [[0, 1, 2], [3, 4, 5], [6, 7, 8]]⟩

/-- Binary64: three sides of a square of 50 m by 50 m, 5000 km from the origin. -/
def farVerts : List (Pt Fl) :=
  [⟨.fin 4999950, .fin 0⟩, ⟨.fin 5000000, .fin 0⟩, ⟨.fin 5000000, .fin 50⟩, ⟨.fin 4999950, .fin 50⟩]

def farEdges : IntArr := ⟨2, [[0, 1], [1, 2], [2, 3]]⟩

end Ex

/-- **C12**: faces without width can make construction raise `IndexError`: one at the right end, or all of them. -/
theorem C12_degenerate_raises :
    CellTree.init Ex.qEnv Ex.thinVerts Ex.thinFaces (-1) 4 2 [0, 1, 2] = .error .indexError ∧
    CellTree.init Ex.qEnv Ex.thinVerts Ex.flatFaces (-1) 4 2 [0, 1, 2] = .error .indexError := by
  constructor <;> exact Ex.eq_error_of_errOf (by decide +kernel)

/-- **C12** holds in exact arithmetic only: in binary64 construction can raise although every box has positive width and
height. -/
theorem C12_rounding_raises :
    CellTree.init Fl.env Ex.sliverVerts Ex.sliverFaces (-1) 4 2 [0, 1, 2] = .error .indexError :=
  Ex.eq_error_of_errOf (by decide +kernel)

/-- **C58** is violated in binary64: the amount by which the boxes of edges are widened depends on the extent of the network,
and disappears in rounding if the network is far from the origin. A vertical edge at the right end then makes the
constructor raise `IndexError`. -/
theorem C58_far_network_violated :
    ValidEdges Ex.farVerts.length Ex.farEdges ∧
      EdgeCellTree.init Fl.env Ex.farVerts Ex.farEdges 4 2 = .error .indexError := by
  constructor
  · intro r hr
    simp only [Ex.farEdges, List.mem_cons, List.not_mem_nil, or_false] at hr
    rcases hr with rfl | rfl | rfl
    all_goals exact ⟨_, _, rfl, by decide, by decide, by decide, by decide⟩
  · exact Ex.eq_error_of_errOf (by decide +kernel)

/-! ## The hypotheses can be met -/

example : (4 : ℚ) * (Ex.faces.rows.length : ℚ) < Ex.qEnv.floatMax ∧
    (∀ r ∈ Ex.faces.rows, ∃ u ∈ facePts Ex.qVerts (-999) r, ∃ v ∈ facePts Ex.qVerts (-999) r, u.x < v.x) ∧
    (∀ r ∈ Ex.faces.rows, ∃ u ∈ facePts Ex.qVerts (-999) r, ∃ v ∈ facePts Ex.qVerts (-999) r, u.y < v.y) :=
  ⟨by decide +kernel, by decide +kernel, by decide +kernel⟩

/-- Edges of the small network: horizontal, vertical and of length zero. -/
example : ∃ t, EdgeCellTree.init Ex.qEnv Ex.netVerts Ex.netEdges 4 1 = .ok t :=
  C58_edge_construction_partial Ex.net_valid (by decide) (by decide) (by decide) (by decide +kernel) (by decide +kernel)

end Celltree
