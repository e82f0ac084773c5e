import Verif.Spec.Dtype
import Verif.Props.Cast
import Verif.Proofs.FloatBuild

/-!
# The dtype of the arguments: C112, C113, C114
-/

namespace Celltree

open Fl

/-! ## Conversions -/

theorem Entry.toFloat_val {e : Entry} {q : ℚ} (h : e.val = some q) (ho : e.Ok) : e.toFloat = Fl.rnd q := by
  match e, h with
  | .int n, h => obtain rfl := Option.some.inj h; rfl
  | .float (.fin r), h =>
    obtain rfl := Option.some.inj h
    show Fl.fin r = Fl.rnd r
    rw [rnd_fin ho.2, rq_of_isRep ho.1]

theorem Entry.Same.toFloat {e f : Entry} (h : e.Same f) (he : e.Ok) (hf : f.Ok) : e.toFloat = f.toFloat := by
  rcases h with rfl | ⟨q, h1, h2⟩
  · rfl
  · rw [Entry.toFloat_val h1 he, Entry.toFloat_val h2 hf]

/-- Arrays with the same numbers are the same after the conversion. -/
theorem SameNumbers.toFloat64 {a b : NdArray Entry} (h : SameNumbers a b) (ha : ∀ e ∈ a.data, e.Ok) (hb : ∀ e ∈ b.data, e.Ok) :
    toFloat64 a = toFloat64 b := by
  obtain ⟨s, d⟩ := h
  unfold Celltree.toFloat64
  rw [s]
  congr 1
  generalize a.data = l at d ha
  generalize b.data = m at d hb
  induction d with
  | nil => rfl
  | cons h _ ih =>
    rw [List.map_cons, List.map_cons, h.toFloat (ha _ (by simp)) (hb _ (by simp)),
      ih (fun e he => ha e (List.mem_cons_of_mem _ he)) fun e he => hb e (List.mem_cons_of_mem _ he)]

theorem truncRat_int (n : Int) : truncRat (n : ℚ) = n := by
  unfold truncRat
  simp

theorem Entry.holds {e : Entry} {n : Int} (h : e.val = some (n : ℚ)) (hn : FitsInt64 n) (undef : Fl → Int) :
    e.astypeInt undef = n ∧ e.asarrayInt = .ok n := by
  match e, h with
  | .int k, h =>
    have h := Option.some.inj h
    obtain rfl : k = n := by exact_mod_cast h
    obtain ⟨h1, h2⟩ := hn
    unfold Entry.astypeInt Entry.asarrayInt
    refine ⟨?_, if_pos ⟨h1, h2⟩⟩
    apply Int.bmod_eq_of_le_mul_two <;> norm_num <;> omega
  | .float (.fin q), h =>
    obtain rfl := Option.some.inj h
    simp only [Entry.astypeInt, Entry.asarrayInt, truncRat_int]
    exact ⟨if_pos hn, if_pos hn⟩

/-- An array that contains integers that fit in 64 bits is converted to these integers. -/
theorem Holds.toIntp {a : NdArray Entry} {b : NdArray Int} (h : Holds a b) (undef : Fl → Int) (isArray : Bool) :
    toIntp undef isArray a = .ok b := by
  obtain ⟨s, d⟩ := h
  obtain ⟨sb, l⟩ := b
  simp only at s d
  have key : a.data.map (Entry.astypeInt undef) = l ∧ a.data.mapM Entry.asarrayInt = .ok l := by
    generalize a.data = m at d
    induction d with
    | nil => exact ⟨rfl, rfl⟩
    | cons h _ ih =>
      obtain ⟨g1, g2⟩ := Entry.holds h.1 h.2 undef
      refine ⟨by rw [List.map_cons, g1, ih.1], ?_⟩
      rw [List.mapM_cons, g2, ih.2]
      rfl
  unfold Celltree.toIntp
  cases isArray
  · rw [if_neg (by decide), key.2, s]; rfl
  · rw [if_pos rfl, key.1, s]

/-! ## C112 -/

variable {env : Env Fl} {undef undef' : Fl → Int} {isArray isArray' : Bool} {vertices vertices' faces faces' : NdArray Entry}
variable {table : NdArray Int} {fill nBuckets cellsPerLeaf : Int} {sched : List Nat} {t : CellTree Fl}

theorem initE_eq (hf : Holds faces table) :
    CellTree.initE env undef isArray vertices faces fill nBuckets cellsPerLeaf sched =
      CellTree.initArr env (toFloat64 vertices) table fill nBuckets cellsPerLeaf sched := by
  unfold CellTree.initE CellTree.initArr castVerticesE castFacesE
  rw [hf.toIntp undef isArray]
  rfl

/-- **C112**, construction: the object depends only on the numbers in the arrays of vertices and faces, not on their dtype, nor on
whether the faces are given as an array or as nested lists. -/
theorem C112_same_tree (hv : SameNumbers vertices vertices') (ho : ∀ e ∈ vertices.data, e.Ok) (ho' : ∀ e ∈ vertices'.data, e.Ok)
    (hf : Holds faces table) (hf' : Holds faces' table) :
    CellTree.initE env undef isArray vertices faces fill nBuckets cellsPerLeaf sched =
      CellTree.initE env undef' isArray' vertices' faces' fill nBuckets cellsPerLeaf sched := by
  rw [initE_eq hf, initE_eq hf', hv.toFloat64 ho ho']

/-- **C112**, queries: the results depend only on the numbers in the arrays. -/
theorem C112_same_results {a b : NdArray Entry} (h : SameNumbers a b) (ha : ∀ e ∈ a.data, e.Ok) (hb : ∀ e ∈ b.data, e.Ok)
    (tol : Option Fl) (nThreads : Nat) (sched1 : List Nat) (sched2 sched3 : Nat → List Nat) (hf : Holds faces table)
    (hf' : Holds faces' table) (edges : IntArr) :
    t.locatePointsE env a tol sched = t.locatePointsE env b tol sched ∧
    t.locateBoxesE a nThreads sched = t.locateBoxesE b nThreads sched ∧
    t.intersectBoxesE a nThreads sched sched2 = t.intersectBoxesE b nThreads sched sched2 ∧
    t.intersectFacesE env undef isArray a faces fill nThreads sched sched1 sched2 sched3 =
      t.intersectFacesE env undef' isArray' b faces' fill nThreads sched sched1 sched2 sched3 ∧
    t.intersectEdgesE env a nThreads sched = t.intersectEdgesE env b nThreads sched ∧
    EdgeCellTree.initE env a edges nBuckets cellsPerLeaf = EdgeCellTree.initE env b edges nBuckets cellsPerLeaf ∧
    t.locatePointsOnEdgeE env a tol sched = t.locatePointsOnEdgeE env b tol sched ∧
    t.intersectEdgesOnEdgeE env a nThreads sched = t.intersectEdgesOnEdgeE env b nThreads sched := by
  have e := h.toFloat64 ha hb
  unfold CellTree.locatePointsE CellTree.locateBoxesE CellTree.intersectBoxesE CellTree.intersectFacesE CellTree.intersectEdgesE
    EdgeCellTree.initE CellTree.locatePointsOnEdgeE CellTree.intersectEdgesOnEdgeE castVerticesE
  rw [e, hf.toIntp, hf'.toIntp]
  exact ⟨rfl, rfl, rfl, rfl, rfl, rfl, rfl, rfl⟩

/-- **C112**, which results these are: an array of any type with the numbers of a `float64` array gives what the constructors and the
queries give for the points, boxes or edges in its rows. -/
theorem C112_reference {a b c : NdArray Entry} {points : List (Pt Fl)} {boxes : List (Box Fl)} {segments : List (Pt Fl × Pt Fl)}
    {faceTable : IntArr} (hp : SameNumbers a (floatArr (arrOfPts points))) (hb : SameNumbers b (floatArr (arrOfBoxes boxes)))
    (hs : SameNumbers c (floatArr (arrOfEdges segments)))
    (ha : ∀ e ∈ a.data ++ b.data ++ c.data, e.Ok)
    (hr : ∀ e ∈ (floatArr (arrOfPts points)).data ++ (floatArr (arrOfBoxes boxes)).data ++ (floatArr (arrOfEdges segments)).data, e.Ok)
    (hf : Holds faces (arrOfTable faceTable)) (hrect : faceTable.Rect)
    (tol : Option Fl) (nThreads : Nat) (sched1 : List Nat) (sched2 sched3 : Nat → List Nat) (edges : IntArr) :
    CellTree.initE env undef isArray a faces fill nBuckets cellsPerLeaf sched =
      CellTree.init env points faceTable fill nBuckets cellsPerLeaf sched ∧
    t.locatePointsE env a tol sched = t.locatePoints env points tol sched ∧
    t.barycentricWeightsE env true a tol sched sched1 = t.barycentricWeights env points tol sched sched1 ∧
    t.locateBoxesE b nThreads sched = t.locateBoxes boxes nThreads sched ∧
    t.intersectBoxesE b nThreads sched sched2 = t.intersectBoxes boxes nThreads sched sched2 ∧
    t.intersectEdgesE env c nThreads sched = t.intersectEdges env segments nThreads sched ∧
    t.intersectFacesE env undef isArray a faces fill nThreads sched sched1 sched2 sched3 =
      t.intersectFacesArr env (arrOfPts points) (arrOfTable faceTable) fill nThreads sched sched1 sched2 sched3 ∧
    EdgeCellTree.initE env a edges nBuckets cellsPerLeaf = EdgeCellTree.init env points edges nBuckets cellsPerLeaf ∧
    t.locatePointsOnEdgeE env a tol sched = t.locatePointsOnEdge env points tol sched ∧
    t.intersectEdgesOnEdgeE env c nThreads sched = t.intersectEdgesOnEdge env segments nThreads sched := by
  have key : ∀ x : NdArray Fl, toFloat64 (floatArr x) = x := by
    rintro ⟨s, d⟩
    unfold toFloat64 floatArr
    simp only [List.map_map]
    congr 1
    exact List.map_id d
  have ea := hp.toFloat64 (fun e he => ha e (by simp [he])) (fun e he => hr e (by simp [he]))
  have eb := hb.toFloat64 (fun e he => ha e (by simp [he])) (fun e he => hr e (by simp [he]))
  have ec := hs.toFloat64 (fun e he => ha e (by simp [he])) (fun e he => hr e (by simp [he]))
  rw [key] at ea eb ec
  obtain ⟨q1, q2, q3, q4, q5, q6, q7, -⟩ := C71_queries_accept (env := env) (t := t) points boxes segments hrect tol nThreads fill
    sched sched1 sched2 sched3
  refine ⟨?_, ?_, ?_, ?_, ?_, ?_, ?_, ?_, ?_, ?_⟩
  · rw [initE_eq hf, ea]
    exact C71_init_accepts points hrect fill nBuckets cellsPerLeaf sched
  · unfold CellTree.locatePointsE; rw [ea]; exact q1
  · unfold CellTree.barycentricWeightsE; rw [ea]; exact q2
  · unfold CellTree.locateBoxesE; rw [eb]; exact q4
  · unfold CellTree.intersectBoxesE; rw [eb]; exact q5
  · unfold CellTree.intersectEdgesE; rw [ec]; exact q6
  · unfold CellTree.intersectFacesE castVerticesE
    rw [ea, hf.toIntp, castVertices_ok]
    rfl
  · unfold EdgeCellTree.initE; rw [ea]; exact (C71_edge_init (arrOfPts points) edges nBuckets cellsPerLeaf).2 points rfl
  · unfold CellTree.locatePointsOnEdgeE; rw [ea]; exact q3
  · unfold CellTree.intersectEdgesOnEdgeE; rw [ec]; exact q7

/-- **C112**, the coordinates: integers of up to 53 bits are not changed by the conversion to binary64. -/
theorem C112_exact (n : Int) (h : |n| ≤ 2 ^ 53) : (Entry.int n).toFloat = .fin n := by
  have hr : IsRep (n : ℚ) := by
    rcases h.lt_or_eq with h | h
    · exact ⟨n, 0, by simp, h, by norm_num⟩
    · rcases abs_choice n with g | g
      · exact ⟨1, 53, by rw [show n = 2 ^ 53 by omega]; norm_num, by norm_num, by norm_num⟩
      · exact ⟨-1, 53, by rw [show n = -2 ^ 53 by omega]; norm_num, by norm_num, by norm_num⟩
  have hb : |(n : ℚ)| ≤ maxNat := by
    refine le_trans ?_ (pow_le_big (k := 53) (by norm_num))
    exact_mod_cast h
  show Fl.rnd n = _
  rw [rnd_fin hb, rq_of_isRep hr]

/-- **C112**, the coordinates: larger integers are rounded, but their order is never reversed. -/
theorem C112_order {e f : Entry} {q r : ℚ} (he : e.val = some q) (hf : f.val = some r) (ho : e.Ok) (ho' : f.Ok) (h : q ≤ r)
    (hq : |q| ≤ 2 ^ 64) (hr : |r| ≤ 2 ^ 64) : e.toFloat ≤ f.toFloat := by
  have hM := pow_le_big (k := 64) (by norm_num)
  rw [Entry.toFloat_val he ho, Entry.toFloat_val hf ho', rnd_fin (hq.trans hM), rnd_fin (hr.trans hM), le_fin]
  exact rq_mono h

/-! ## C113 -/

/-- **C113**, partial: what is missing is that the entries must fit in 64 bits. Then the entries that are equal to the fill value are
marked as missing, whatever the dtype of the array and for every fill value, and all others are kept. -/
theorem C113_fill_partial {n m : Nat} (hs : faces.shape = [n, m]) (hm : m ≤ maxNVertex) (hf : Holds faces table) :
    castFacesE undef isArray faces fill = .ok ⟨m, toRows m n (table.data.map fun v => if v = fill then -1 else v)⟩ := by
  have key : ∀ (n : Nat) (l : List Int), (toRows m n l).map (replaceFill fill) =
      toRows m n (l.map fun v => if v = fill then -1 else v) := by
    intro n
    induction n with
    | zero => intro l; rfl
    | succ n ih =>
      intro l
      simp only [toRows, List.map_cons]
      rw [ih, ← List.map_take, ← List.map_drop]
      rfl
  unfold castFacesE
  rw [hf.toIntp, ok_bind]
  obtain ⟨sh, l⟩ := table
  have hsh := hf.shape
  simp only [hs] at hsh
  subst hsh
  unfold castFacesArr NdArray.table castFaces
  rw [if_neg (by simp)]
  have e1 : rd [n, m] 0 = .ok n := rfl
  have e2 : rd [n, m] 1 = .ok m := rfl
  rw [e1, ok_bind, e2, ok_bind, ok_bind]
  simp only
  rw [if_neg (by omega)]
  by_cases hfill : fill ≠ fillValue
  · rw [if_pos hfill, key]
  · rw [if_neg hfill]
    have : fill = -1 := by rw [ne_eq, not_not] at hfill; exact hfill
    congr 3
    conv_lhs => rw [← List.map_id l]
    apply List.map_congr_left
    intro v _
    split
    · rename_i h; rw [h, this]; rfl
    · rfl

/-! ## C114: nested lists -/

/-- **C114**, where it holds: the arguments that are converted may be arrays or nested lists, with the same result. That is true for
the vertices and faces of a face tree, the vertices of an edge tree, and the arguments of `locate_points`, `locate_boxes`,
`intersect_boxes`, `intersect_faces` and `intersect_edges`, since only the conversion of faces depends on the kind of the argument. The
weights of arrays are those of the converted points, and the tree of an array of edges is the usual one. Missing: the points of `compute_barycentric_weights`, the edges of an edge tree
(`C114_lists_violated`). -/
theorem C114_lists_partial {a b : NdArray Entry} (h : SameNumbers a b) (ha : ∀ e ∈ a.data, e.Ok) (hb : ∀ e ∈ b.data, e.Ok)
    (hf : Holds faces table) (tol : Option Fl) (nThreads : Nat) (sched1 : List Nat) (sched2 sched3 : Nat → List Nat) (edges : IntArr) :
    CellTree.initE env undef true a faces fill nBuckets cellsPerLeaf sched =
      CellTree.initE env undef' false b faces fill nBuckets cellsPerLeaf sched ∧
    t.intersectFacesE env undef true a faces fill nThreads sched sched1 sched2 sched3 =
      t.intersectFacesE env undef' false b faces fill nThreads sched sched1 sched2 sched3 ∧
    t.barycentricWeightsE env true a tol sched sched1 = t.barycentricWeightsE env true b tol sched sched1 ∧
    EdgeCellTree.initListE env true a edges nBuckets cellsPerLeaf = EdgeCellTree.initArr env (toFloat64 b) edges nBuckets cellsPerLeaf := by
  refine ⟨C112_same_tree h ha hb hf hf,
    (C112_same_results h ha hb tol nThreads sched1 sched2 sched3 hf hf ⟨0, []⟩ (nBuckets := 4) (cellsPerLeaf := 2)).2.2.2.1, ?_, ?_⟩
  · unfold CellTree.barycentricWeightsE
    rw [if_pos rfl, if_pos rfl, h.toFloat64 ha hb]
  · unfold EdgeCellTree.initListE EdgeCellTree.initE EdgeCellTree.initArr castVerticesE
    rw [h.toFloat64 ha hb]
    simp only [if_true]
    by_cases h1 : nBuckets < 2
    · rw [if_pos h1, if_pos h1]
    · rw [if_neg h1, if_neg h1]
      by_cases h2 : cellsPerLeaf < 1
      · rw [if_pos h2, if_pos h2]
      · rw [if_neg h2, if_neg h2]
        match castVertices (toFloat64 b) with
        | .ok _ => rfl
        | .error _ => rfl

/-- **C114** is violated: nested lists of points can be located in every tree, but their weights cannot be computed. An edge tree
cannot be built from a nested list of edges, whatever they are. -/
theorem C114_lists_violated (points : NdArray Entry) (tol : Option Fl) (sched1 : List Nat) (edges : IntArr) :
    (∀ r, t.barycentricWeightsE env false points tol sched sched1 ≠ .ok r) ∧
    (∀ r, t.locatePointsE env points tol sched = .ok r →
      t.barycentricWeightsE env false points tol sched sched1 = .error .runtimeError) ∧
    ∀ t', EdgeCellTree.initListE env false vertices edges nBuckets cellsPerLeaf ≠ .ok t' := by
  have key : ∀ r, t.barycentricWeightsE env false points tol sched sched1 ≠ .ok r := by
    intro r h
    unfold CellTree.barycentricWeightsE at h
    rw [if_neg (by decide)] at h
    obtain ⟨_, _, h⟩ := bind_eq_ok.1 h
    obtain ⟨_, _, h⟩ := bind_eq_ok.1 h
    cases h
  refine ⟨key, ?_, ?_⟩
  · intro r h
    unfold CellTree.locatePointsE CellTree.locatePointsArr at h
    unfold CellTree.barycentricWeightsE
    rw [if_neg (by decide)]
    obtain ⟨x, hx, h⟩ := bind_eq_ok.1 h
    rw [hx, ok_bind]
    unfold CellTree.locatePointsE CellTree.locatePointsArr
    have e : t.tolerance env (some x) = .ok x := rfl
    rw [e, ok_bind, h, ok_bind]
  · intro t' h
    unfold EdgeCellTree.initListE at h
    split at h
    · cases h
    · split at h
      · cases h
      · obtain ⟨_, _, h⟩ := bind_eq_ok.1 h
        rw [if_neg (by decide)] at h
        cases h

/-! ## Examples and a violation -/

set_option synthInstance.maxSize 1000

namespace Ex

/-- Two triangles in a table with four columns, with this value for the missing corners. -/
def mixVerts : NdArray Entry := ⟨[5, 2], [.int 0, .int 0, .int 4, .int 0, .int 4, .int 4, .int 0, .int 4, .int 8, .int 4]⟩
def mixFaces (fill : Int) : NdArray Entry :=
  ⟨[2, 4], [.int 0, .int 1, .int 2, .int fill, .int 1, .int 4, .int 2, .int fill]⟩

/-- The same with floating point numbers. -/
def mixVertsF : NdArray Entry := ⟨[5, 2], mixVerts.data.map fun e => .float e.toFloat⟩
def mixFacesF (fill : Int) : NdArray Entry := ⟨[2, 4], (mixFaces fill).data.map fun e => .float e.toFloat⟩

def mixTable (fill : Int) : NdArray Int := ⟨[2, 4], [0, 1, 2, fill, 1, 4, 2, fill]⟩

/-- A point outside of both triangles. -/
def mixPoint : NdArray Entry := ⟨[1, 2], [.int 1, .int 3]⟩

end Ex

open Ex in
/-- **C113** is violated for arrays of `uint64`: with the default fill value of netCDF for this type, `2 ^ 64 - 2`, the missing corner
of the first triangle is taken for the last but one vertex. A point outside of the triangle is located in it. With the default fill
value for `int64` it is not. -/
theorem C113_uint64_violated :
    (∃ t, CellTree.initE Fl.env (fun _ => 0) true mixVerts (mixFaces 18446744073709551614) 18446744073709551614 4 2 [0, 1] = .ok t ∧
      t.data.elements = [[0, 1, 2, -2], [1, 4, 2, -2]] ∧ t.locatePointsE Fl.env mixPoint none [0] = .ok [0]) ∧
    ∃ t, CellTree.initE Fl.env (fun _ => 0) true mixVerts (mixFaces (-9223372036854775806)) (-9223372036854775806) 4 2 [0, 1] =
        .ok t ∧
      t.data.elements = [[0, 1, 2, -1], [1, 4, 2, -1]] ∧ t.locatePointsE Fl.env mixPoint none [0] = .ok [-1] := by
  constructor
  · obtain ⟨t, h1, h2⟩ := bind_eq_ok.1 (show (CellTree.initE Fl.env (fun _ => 0) true mixVerts (mixFaces 18446744073709551614)
        18446744073709551614 4 2 [0, 1] >>= fun t => t.locatePointsE Fl.env mixPoint none [0] >>= fun r =>
        .ok (t.data.elements, r)) = .ok ([[0, 1, 2, -2], [1, 4, 2, -2]], [0]) by decide +kernel)
    obtain ⟨r, h3, h4⟩ := bind_eq_ok.1 h2
    obtain ⟨h5, h6⟩ := Prod.mk.inj (Except.ok.inj h4)
    exact ⟨t, h1, h5, by rw [h3, h6]⟩
  · obtain ⟨t, h1, h2⟩ := bind_eq_ok.1 (show (CellTree.initE Fl.env (fun _ => 0) true mixVerts (mixFaces (-9223372036854775806))
        (-9223372036854775806) 4 2 [0, 1] >>= fun t => t.locatePointsE Fl.env mixPoint none [0] >>= fun r =>
        .ok (t.data.elements, r)) = .ok ([[0, 1, 2, -1], [1, 4, 2, -1]], [-1]) by decide +kernel)
    obtain ⟨r, h3, h4⟩ := bind_eq_ok.1 h2
    obtain ⟨h5, h6⟩ := Prod.mk.inj (Except.ok.inj h4)
    exact ⟨t, h1, h5, by rw [h3, h6]⟩

open Ex in
/-- The table of integers and the table of floating point numbers, with a fill value of `-999`, hold the same integers, and the
vertices are the same numbers. -/
example : SameNumbers mixVerts mixVertsF ∧ (∀ e ∈ mixVerts.data, e.Ok) ∧ (∀ e ∈ mixVertsF.data, e.Ok) ∧
    Holds (mixFaces (-999)) (mixTable (-999)) ∧ Holds (mixFacesF (-999)) (mixTable (-999)) ∧
    ∃ t, CellTree.initE Fl.env (fun _ => 0) true mixVerts (mixFaces (-999)) (-999) 4 2 [0, 1] = .ok t ∧
      CellTree.initE Fl.env (fun _ => 7) false mixVertsF (mixFacesF (-999)) (-999) 4 2 [0, 1] = .ok t ∧
      t.data.elements = [[0, 1, 2, -1], [1, 4, 2, -1]] := by
  have key : ∀ n : Int, |n| ≤ 2 ^ 53 → Entry.Same (.int n) (.float (Entry.int n).toFloat) ∧ (Entry.float (Entry.int n).toFloat).Ok ∧
      (Entry.float (Entry.int n).toFloat).val = some (n : ℚ) := by
    intro n hn
    have h := C112_exact n hn
    refine ⟨Or.inr ⟨n, rfl, by rw [h]; rfl⟩, ?_, by rw [h]; rfl⟩
    show Fl.Rep (Fl.rnd n)
    exact rep_rnd _
  have hv : SameNumbers mixVerts mixVertsF := by
    refine ⟨rfl, ?_⟩
    unfold mixVertsF mixVerts
    simp only [List.map_cons, List.map_nil, List.forall₂_cons, List.Forall₂.nil, and_true]
    exact ⟨(key _ (by decide)).1, (key _ (by decide)).1, (key _ (by decide)).1, (key _ (by decide)).1, (key _ (by decide)).1,
      (key _ (by decide)).1, (key _ (by decide)).1, (key _ (by decide)).1, (key _ (by decide)).1, (key _ (by decide)).1⟩
  have ho : ∀ e ∈ mixVerts.data, e.Ok := by
    intro e he
    simp only [mixVerts, List.mem_cons, List.not_mem_nil, or_false] at he
    rcases he with rfl | rfl | rfl | rfl | rfl | rfl | rfl | rfl | rfl | rfl <;> trivial
  have ho' : ∀ e ∈ mixVertsF.data, e.Ok := by
    intro e he
    obtain ⟨f, hf, rfl⟩ := List.mem_map.1 he
    cases f with
    | int n => exact rep_rnd _
    | float x => exact ho _ hf
  have hf : Holds (mixFaces (-999)) (mixTable (-999)) := by
    refine ⟨rfl, ?_⟩
    unfold mixFaces mixTable
    simp only [List.forall₂_cons, List.Forall₂.nil, and_true]
    exact ⟨⟨rfl, by decide⟩, ⟨rfl, by decide⟩, ⟨rfl, by decide⟩, ⟨rfl, by decide⟩, ⟨rfl, by decide⟩, ⟨rfl, by decide⟩,
      ⟨rfl, by decide⟩, rfl, by decide⟩
  have hf' : Holds (mixFacesF (-999)) (mixTable (-999)) := by
    refine ⟨rfl, ?_⟩
    unfold mixFacesF mixFaces mixTable
    simp only [List.map_cons, List.map_nil, List.forall₂_cons, List.Forall₂.nil, and_true]
    exact ⟨⟨(key 0 (by decide)).2.2, by decide⟩, ⟨(key 1 (by decide)).2.2, by decide⟩, ⟨(key 2 (by decide)).2.2, by decide⟩,
      ⟨(key (-999) (by decide)).2.2, by decide⟩, ⟨(key 1 (by decide)).2.2, by decide⟩, ⟨(key 4 (by decide)).2.2, by decide⟩,
      ⟨(key 2 (by decide)).2.2, by decide⟩, (key (-999) (by decide)).2.2, by decide⟩
  obtain ⟨t, h1, h2⟩ := bind_eq_ok.1 (show (CellTree.initE Fl.env (fun _ => 0) true mixVerts (mixFaces (-999)) (-999) 4 2 [0, 1] >>=
    fun t => .ok t.data.elements) = .ok [[0, 1, 2, -1], [1, 4, 2, -1]] by decide +kernel)
  refine ⟨hv, ho, ho', hf, hf', t, h1, ?_, Except.ok.inj h2⟩
  have e := C112_same_tree (env := Fl.env) (undef := fun _ => 0) (undef' := fun _ => 7) (isArray := true) (isArray' := false)
    (fill := -999) (nBuckets := 4) (cellsPerLeaf := 2) (sched := [0, 1]) hv ho ho' hf hf'
  exact e.symm.trans h1

open Ex in
/-- A point of the second triangle, as an array of integers and as nested lists: it is located, and its weights are computed for the
array only. -/
example : ∃ t, CellTree.initE Fl.env (fun _ => 0) true mixVerts (mixFaces (-999)) (-999) 4 2 [0, 1] = .ok t ∧
    t.locatePointsE Fl.env ⟨[1, 2], [.int 5, .int 3]⟩ none [0] = .ok [1] ∧
    (t.barycentricWeightsE Fl.env true ⟨[1, 2], [.int 5, .int 3]⟩ none [0] [0]).map (fun r => r.1) = .ok [1] ∧
    t.barycentricWeightsE Fl.env false ⟨[1, 2], [.int 5, .int 3]⟩ none [0] [0] = .error .runtimeError := by
  obtain ⟨t, h1, h2⟩ := bind_eq_ok.1 (show (CellTree.initE Fl.env (fun _ => 0) true mixVerts (mixFaces (-999)) (-999) 4 2 [0, 1] >>=
    fun t => t.locatePointsE Fl.env ⟨[1, 2], [.int 5, .int 3]⟩ none [0] >>= fun r =>
    (t.barycentricWeightsE Fl.env true ⟨[1, 2], [.int 5, .int 3]⟩ none [0] [0]).map (fun r => r.1) >>= fun s => .ok (r, s)) =
    .ok ([1], [1]) by decide +kernel)
  obtain ⟨r, h3, h4⟩ := bind_eq_ok.1 h2
  obtain ⟨s, h5, h6⟩ := bind_eq_ok.1 h4
  obtain ⟨h7, h8⟩ := Prod.mk.inj (Except.ok.inj h6)
  rw [h7] at h3
  rw [h8] at h5
  exact ⟨t, h1, h3, h5, (C114_lists_violated (vertices := mixVerts) (nBuckets := 4) (cellsPerLeaf := 2) _ _ _ ⟨0, []⟩).2.1 _ h3⟩

end Celltree
