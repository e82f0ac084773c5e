import Verif.Proofs.BoxPairs
import Verif.Spec.Examples

/-!
# Box search: C01 – C05, C49
-/

set_option linter.unusedSectionVars false

namespace Celltree

variable {F : Type} [Add F] [Sub F] [Mul F] [Div F] [Neg F] [Zero F] [One F] [IntCast F]
  [LT F] [LE F] [BEq F] [DecidableLT F] [DecidableLE F] [NumOrd F]

section
variable {env : Env F} {vertices : List (Pt F)} {faces : IntArr} {fill nBuckets cellsPerLeaf : Int} {t : CellTree F}

/-- **C01**: the box search returns exactly the pairs that a comparison of every box with every face gives. -/
theorem C01_locate_boxes_exact (hm : GoodMesh env vertices faces fill)
    (ht : Makes env vertices faces fill nBuckets cellsPerLeaf t) (boxes : List (Box F)) {nThreads : Nat}
    (hn : 0 < nThreads) {sched : List Nat} (hs : sched.Perm (List.range nThreads)) :
    ∃ ii jj, t.locateBoxes boxes nThreads sched = .ok (ii, jj) ∧ ii.length = jj.length ∧
      ∀ i j, (i, j) ∈ ii.zip jj ↔ ∃ q r, boxes[i]? = some q ∧ faces.rows[j]? = some r ∧
        BoxOverlapsPts q (facePts vertices fill r) := by
  obtain ⟨bt, hc⟩ := ht.constructed hm
  refine ⟨_, _, locateBoxes_spec hc.tree boxes hn hs, by simp, ?_⟩
  intro i j
  rw [zip_fst_snd, mem_boxPairs]
  constructor
  · rintro ⟨q, hq, hj⟩
    obtain ⟨b, hb, hb'⟩ := (mem_boxHits hc.tree q j).1 hj
    have hlt : j < faces.rows.length := by
      rw [← hc.boxes.length]; exact (List.getElem?_eq_some_iff.1 hb).1
    obtain ⟨b', c1, c2⟩ := hc.boxes.box j faces.rows[j] (by simp)
    rw [hb] at c1
    cases c1
    exact ⟨q, _, hq, by simp [hlt], (c2.overlap_iff q).1 hb'⟩
  · rintro ⟨q, r, hq, hr, ho⟩
    obtain ⟨b, c1, c2⟩ := hc.boxes.box j r hr
    exact ⟨q, hq, (mem_boxHits hc.tree q j).2 ⟨b, c1, (c2.overlap_iff q).2 ho⟩⟩

/-- **C02**: every pair is returned once, and the pairs are grouped by query, in the order of the queries. -/
theorem C02_pairs_once_grouped (hm : GoodMesh env vertices faces fill)
    (ht : Makes env vertices faces fill nBuckets cellsPerLeaf t) (boxes : List (Box F)) {nThreads : Nat}
    (hn : 0 < nThreads) {sched : List Nat} (hs : sched.Perm (List.range nThreads)) :
    ∃ ii jj, t.locateBoxes boxes nThreads sched = .ok (ii, jj) ∧ ii.length = jj.length ∧ (ii.zip jj).Nodup ∧
      ii.Pairwise (· ≤ ·) := by
  obtain ⟨bt, hc⟩ := ht.constructed hm
  refine ⟨_, _, locateBoxes_spec hc.tree boxes hn hs, by simp, ?_, ?_⟩
  · rw [zip_fst_snd]; exact (boxPairs_nodup hc.tree boxes).1
  · rw [List.pairwise_map]; exact (boxPairs_nodup hc.tree boxes).2

/-- **C03** (boxes): the parameters of the tree have no influence on the result, apart from the order of the faces of one
query. -/
theorem C03_locate_boxes_parameter_independent (hm : GoodMesh env vertices faces fill)
    {nBuckets' cellsPerLeaf' : Int} {t' : CellTree F}
    (ht : Makes env vertices faces fill nBuckets cellsPerLeaf t)
    (ht' : Makes env vertices faces fill nBuckets' cellsPerLeaf' t') (boxes : List (Box F)) {nThreads : Nat}
    (hn : 0 < nThreads) {sched : List Nat} (hs : sched.Perm (List.range nThreads)) :
    ∃ ii jj jj', t.locateBoxes boxes nThreads sched = .ok (ii, jj) ∧ t'.locateBoxes boxes nThreads sched = .ok (ii, jj') ∧
      (ii.zip jj).Perm (ii.zip jj') := by
  obtain ⟨bt, hc⟩ := ht.constructed hm
  obtain ⟨bt', hc'⟩ := ht'.constructed hm
  obtain ⟨h1, h2⟩ := boxPairs_perm (boxHits_perm hc hc' fun _ _ => rfl) boxes
  refine ⟨_, _, (boxPairs t'.data bt' boxes).map Prod.snd, locateBoxes_spec hc.tree boxes hn hs, ?_, ?_⟩
  · rw [h1]; exact locateBoxes_spec hc'.tree boxes hn hs
  · rw [zip_fst_snd, h1, zip_fst_snd]; exact h2

/-- **C04** (boxes): the number of threads and the order in which the chunks are processed have no influence. -/
theorem C04_locate_boxes_thread_independent (hm : GoodMesh env vertices faces fill)
    (ht : Makes env vertices faces fill nBuckets cellsPerLeaf t) (boxes : List (Box F)) {n n' : Nat}
    (hn : 0 < n) (hn' : 0 < n') {sched sched' : List Nat} (hs : sched.Perm (List.range n))
    (hs' : sched'.Perm (List.range n')) :
    t.locateBoxes boxes n sched = t.locateBoxes boxes n' sched' := by
  obtain ⟨bt, hc⟩ := ht.constructed hm
  exact (locateBoxes_spec hc.tree boxes hn hs).trans (locateBoxes_spec hc.tree boxes hn' hs').symm

/-- **C04** (construction): the order of the iterations in the constructor has no influence. -/
theorem C04_init_schedule_independent (hv : ValidFaces vertices.length fill faces) {sched sched' : List Nat}
    (hs : sched.Perm (List.range faces.rows.length)) (hs' : sched'.Perm (List.range faces.rows.length)) :
    CellTree.init env vertices faces fill nBuckets cellsPerLeaf sched =
      CellTree.init env vertices faces fill nBuckets cellsPerLeaf sched' := by
  unfold CellTree.init
  rw [castFaces_spec hv]
  by_cases h3 : faces.ncol > maxNVertex
  · rw [if_pos h3]; rfl
  rw [if_neg h3]
  obtain ⟨rows, hr, ho⟩ := counterClockwise_oriented hv hs
  obtain ⟨rows', hr', ho'⟩ := counterClockwise_oriented hv hs'
  have : rows = rows' := by
    apply List.ext_getElem?
    intro i
    by_cases hi : i < faces.rows.length
    · obtain ⟨B, b1, _, _, b4⟩ := ho.row i faces.rows[i] (by simp)
      obtain ⟨B', c1, _, _, c4⟩ := ho'.row i faces.rows[i] (by simp)
      rw [b1, c1]
      rw [b4] at c4
      exact congrArg some (Except.ok.inj c4)
    · have h1 := ho.length
      have h2 := ho'.length
      rw [List.getElem?_eq_none (by omega), List.getElem?_eq_none (by omega)]
  simp only [ok_bind]
  rw [hr, hr', this]

/-- **C05** (boxes): the answer to a query does not depend on the other queries of the call, so neither on the size of
the buffers nor on the moment at which they grow. `tag i` replaces the query number of a single query (`0`) by `i`. -/
theorem C05_locate_boxes_each_alone (hm : GoodMesh env vertices faces fill)
    (ht : Makes env vertices faces fill nBuckets cellsPerLeaf t) (boxes : List (Box F)) {nThreads : Nat}
    (hn : 0 < nThreads) {sched : List Nat} (hs : sched.Perm (List.range nThreads)) :
    ∃ single : Box F → List Nat, (∀ q, t.locateBoxes [q] 1 [0] = .ok ((single q).map (fun _ => 0), single q)) ∧
      t.locateBoxes boxes nThreads sched =
        .ok (boxes.zipIdx.flatMap fun p => (single p.1).map fun _ => p.2, boxes.flatMap single) := by
  obtain ⟨bt, hc⟩ := ht.constructed hm
  refine ⟨boxHits t.data bt, ?_, ?_⟩
  · intro q
    have := locateBoxes_spec hc.tree [q] (n := 1) (by omega) (sched := [0]) (List.Perm.refl _)
    unfold CellTree.locateBoxes
    rw [this]
    simp [boxPairs, Function.comp_def]
  · have := locateBoxes_spec hc.tree boxes hn hs
    unfold CellTree.locateBoxes
    rw [this]
    congr 2
    · simp [boxPairs, List.map_flatMap, Function.comp_def]
    · simp only [boxPairs, List.map_flatMap, List.map_map, Function.comp_def, List.map_id']
      exact flatMap_zipIdx_fst _ _ _

/-- The hypotheses can be met: the mesh of `Spec/Examples.lean`, in floating point. -/
theorem example_good : GoodMesh Fl.env Ex.flVerts Ex.faces (-999) where
  valid := Ex.faces_valid
  num := by
    intro r hr p hp
    simp only [Ex.faces, List.mem_cons, List.not_mem_nil, or_false] at hr
    rcases hr with rfl | rfl | rfl | rfl <;>
      · simp [facePts, rowIndices, Ex.flVerts, Ex.verts] at hp
        rcases hp with rfl | rfl | rfl | rfl <;> exact ⟨nofun, nofun⟩
  max := nofun
  min := nofun

example : ∃ t, Makes Fl.env Ex.flVerts Ex.faces (-999) 4 1 t ∧
    t.locateBoxes [⟨.fin 1, .fin 3, .fin 1, .fin 3⟩, ⟨.nan, .fin 1, .fin 0, .fin 1⟩, ⟨.fin 3, .pinf, .ninf, .fin 1⟩] 2 [1, 0] =
      .ok ([0, 0, 0, 0, 2, 2], [2, 1, 3, 0, 2, 1]) := by
  obtain ⟨t, h1, h2⟩ := bind_eq_ok.1 (show (Ex.flTree >>= fun t => t.locateBoxes [⟨.fin 1, .fin 3, .fin 1, .fin 3⟩,
    ⟨.nan, .fin 1, .fin 0, .fin 1⟩, ⟨.fin 3, .pinf, .ninf, .fin 1⟩] 2 [1, 0]) =
      .ok ([0, 0, 0, 0, 2, 2], [2, 1, 3, 0, 2, 1]) by decide +kernel)
  exact ⟨t, ⟨[2, 0, 3, 1], by decide, h1⟩, h2⟩

end

/-- **C49**: queries are divided over the threads in consecutive pieces whose sizes differ by at most one, and the
positions in the results are those of the whole list of queries. -/
theorem C49_chunking {α : Type} (l : List α) {n : Nat} (hn : 0 < n) :
    ∃ cs offsets, arraySplit l n = .ok cs ∧ chunkOffsets cs n = .ok offsets ∧ cs.length = n ∧ offsets.length = n ∧
      cs.flatten = l ∧ (∀ c ∈ cs, ∀ d ∈ cs, c.length ≤ d.length + 1) ∧
      ∀ (i : Nat) c o (k : Nat) a, cs[i]? = some c → offsets[i]? = some o → c[k]? = some a → l[o + k]? = some a := by
  obtain ⟨cs, h1, h2, h3, h4⟩ := arraySplit_spec l hn
  obtain ⟨o, h5, h6, h7⟩ := chunkOffsets_spec cs h2 hn
  refine ⟨cs, o, h1, h5, h2, h6, h3, ?_, ?_⟩
  · intro c hc d hd
    have := h4 c hc
    have := h4 d hd
    omega
  · intro i c o' k a hc ho hk
    have hi : i < n := by rw [← h2]; exact (List.getElem?_eq_some_iff.1 hc).1
    rw [h7 i hi] at ho
    cases ho
    rw [← h3]
    clear h1 h2 h3 h4 h5 h6 h7
    induction cs generalizing i with
    | nil => simp at hc
    | cons d cs ih =>
      cases i with
      | zero =>
        simp at hc
        subst hc
        simp only [List.take_zero, List.map_nil, List.sum_nil, Nat.zero_add, List.flatten_cons]
        rw [List.getElem?_append_left (List.getElem?_eq_some_iff.1 hk).1, hk]
      | succ i =>
        simp only [List.getElem?_cons_succ] at hc
        have := ih i hc (by omega)
        simp only [List.take_succ_cons, List.map_cons, List.sum_cons, List.flatten_cons]
        rw [List.getElem?_append_right (by omega), ← this]
        congr 1
        omega

end Celltree
