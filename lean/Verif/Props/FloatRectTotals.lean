import Verif.Props.FloatRects
import Verif.Proofs.RectTiles
import Verif.Proofs.Conserve

/-!
# Totals of areas of intersection of rectangles in binary64: C93
-/

set_option linter.unusedSectionVars false

namespace Celltree.Fl

variable {vertices verticesA : List (Pt Fl)} {faces facesA : IntArr} {fill fillA nBuckets cellsPerLeaf : Int} {t : CellTree Fl}
  {M : ℚ}

/-- A sum over the entries of a table is near the sum of the exact values. -/
theorem sum_near {T : List (ℕ × ℚ)} {n : ℕ} {f g e : ℕ → ℚ} (hnd : (T.map (·.1)).Nodup)
    (hT : ∀ j a, (j, a) ∈ T ↔ j < n ∧ a = f j ∧ 0 < a) (hf : ∀ j < n, 0 ≤ f j) (h : ∀ j < n, |f j - g j| ≤ e j) :
    |(T.map (·.2)).sum - ∑ j ∈ Finset.range n, g j| ≤ ∑ j ∈ Finset.range n, e j := by
  have h1 : (T.map (·.2)).sum = ((T.map (·.1)).map f).sum := by
    rw [List.map_map]
    congr 1
    exact List.map_congr_left fun x hx => ((hT x.1 x.2).1 hx).2.1
  have h2 : ((T.map (·.1)).map f).sum = ∑ j ∈ (T.map (·.1)).toFinset, f j := (List.sum_toFinset _ hnd).symm
  have h3 : ∑ j ∈ (T.map (·.1)).toFinset, f j = ∑ j ∈ Finset.range n, f j := by
    refine Finset.sum_subset ?_ ?_
    · intro j hj
      rw [List.mem_toFinset, List.mem_map] at hj
      obtain ⟨x, hx, rfl⟩ := hj
      exact Finset.mem_range.2 ((hT x.1 x.2).1 hx).1
    · intro j hj hj'
      by_contra hne
      refine hj' ?_
      rw [List.mem_toFinset, List.mem_map]
      have hj := Finset.mem_range.1 hj
      exact ⟨(j, f j), (hT _ _).2 ⟨hj, rfl, lt_of_le_of_ne (hf j hj) (Ne.symm hne)⟩, rfl⟩
  rw [h1, h2, h3, ← Finset.sum_sub_distrib]
  refine (Finset.abs_sum_le_sum_abs _ _).trans (Finset.sum_le_sum fun j hj => h j (Finset.mem_range.1 hj))

theorem sum_range_getD {α : Type} (l : List α) (d : α) (f : α → ℚ) :
    ∑ j ∈ Finset.range l.length, f (l.getD j d) = (l.map f).sum := by
  induction l with
  | nil => simp
  | cons a l ih =>
    rw [List.length_cons, Finset.sum_range_succ', List.map_cons, List.sum_cons, ← ih, add_comm]
    simp

theorem common_le_side (q c : Box ℚ) (hx : q.xmin ≤ q.xmax) (hy : q.ymin ≤ q.ymax) :
    commonX q c ≤ q.xmax - q.xmin ∧ commonY q c ≤ q.ymax - q.ymin := by
  unfold commonX commonY
  have a1 := min_le_left q.xmax c.xmax
  have a2 := le_max_left q.xmin c.xmin
  have a3 := min_le_left q.ymax c.ymax
  have a4 := le_max_left q.ymin c.ymin
  exact ⟨max_le (by linarith) (by linarith), max_le (by linarith) (by linarith)⟩

theorem sum_common_err (q : Box ℚ) (e : ℚ) (cs : List (Box ℚ)) :
    (cs.map fun c => if commonX q c ≠ 0 ∧ commonY q c ≠ 0 then e else 0).sum = nCommon q cs * e := by
  unfold nCommon
  induction cs with
  | nil => simp
  | cons c cs ih =>
    rw [List.map_cons, List.sum_cons, ih, List.countP_cons]
    by_cases h : commonX q c ≠ 0 ∧ commonY q c ≠ 0
    · rw [if_pos h, if_pos (by simpa using h)]; push_cast; ring
    · rw [if_neg h, if_neg (by simpa using h)]; push_cast; ring

/-- The total for a rectangle, from a table of areas that are accurate. -/
theorem total_near (hM : 0 ≤ M) {q : Box ℚ} (hx : q.xmin ≤ q.xmax) (hy : q.ymin ≤ q.ymax) {cs : List (Box ℚ)} {T : List (ℕ × ℚ)}
    (hnd : (T.map (·.1)).Nodup) (hlt : ∀ j y, (j, y) ∈ T → j < cs.length)
    (h : ∀ j c, cs[j]? = some c → ∃ a, 0 ≤ a ∧ |a - commonX q c * commonY q c| ≤ rectAcc M q c ∧
      (commonX q c = 0 ∨ commonY q c = 0 → a = 0) ∧ ∀ y, (j, y) ∈ T ↔ y = a ∧ 0 < a) :
    |(T.map (·.2)).sum - (cs.map fun c => commonX q c * commonY q c).sum| ≤ totalAcc M q cs := by
  have h' : ∀ j : ℕ, ∃ a, ∀ c, cs[j]? = some c → 0 ≤ a ∧ |a - commonX q c * commonY q c| ≤ rectAcc M q c ∧
      (commonX q c = 0 ∨ commonY q c = 0 → a = 0) ∧ ∀ y, (j, y) ∈ T ↔ y = a ∧ 0 < a := by
    intro j
    rcases hj : cs[j]? with _ | c
    · exact ⟨0, fun c hc => by cases hc⟩
    · obtain ⟨a, ha⟩ := h j c hj
      exact ⟨a, fun c' hc => by cases hc; exact ha⟩
  choose f hf using h'
  have hd : ∀ j (hj : j < cs.length), cs[j]? = some (cs.getD j ⟨0, 0, 0, 0⟩) := by
    intro j hj
    rw [List.getD_eq_getElem?_getD, List.getElem?_eq_getElem hj]; rfl
  set e := M / 2 ^ 40 * ((q.xmax - q.xmin) + (q.ymax - q.ymin) + M / 2 ^ 40) with he
  have key := sum_near (T := T) (n := cs.length) (f := f)
    (g := fun j => commonX q (cs.getD j ⟨0, 0, 0, 0⟩) * commonY q (cs.getD j ⟨0, 0, 0, 0⟩))
    (e := fun j => if commonX q (cs.getD j ⟨0, 0, 0, 0⟩) ≠ 0 ∧ commonY q (cs.getD j ⟨0, 0, 0, 0⟩) ≠ 0 then e else 0) hnd
    (by
      intro j a
      constructor
      · intro hm
        have hj := hlt j a hm
        obtain ⟨h1, h2⟩ := ((hf j _ (hd j hj)).2.2.2 a).1 hm
        exact ⟨hj, h1, h1 ▸ h2⟩
      · rintro ⟨hj, h1, h2⟩
        exact ((hf j _ (hd j hj)).2.2.2 a).2 ⟨h1, h1 ▸ h2⟩)
    (fun j hj => (hf j _ (hd j hj)).1)
    (by
      intro j hj
      obtain ⟨_, h2, h3, _⟩ := hf j _ (hd j hj)
      generalize cs.getD j ⟨0, 0, 0, 0⟩ = c at h2 h3 ⊢
      by_cases h0 : commonX q c ≠ 0 ∧ commonY q c ≠ 0
      · rw [if_pos h0]
        refine h2.trans ?_
        obtain ⟨s1, s2⟩ := common_le_side q c hx hy
        unfold rectAcc
        rw [he]
        refine mul_le_mul_of_nonneg_left ?_ (by positivity)
        linarith
      · rw [if_neg h0]
        have h0' : commonX q c = 0 ∨ commonY q c = 0 := by
          by_contra hno
          push Not at hno
          exact h0 hno
        rw [h3 h0']
        rcases h0' with h | h <;> rw [h] <;> simp)
  rw [sum_range_getD cs ⟨0, 0, 0, 0⟩ (fun c => commonX q c * commonY q c),
    sum_range_getD cs ⟨0, 0, 0, 0⟩ (fun c => if commonX q c ≠ 0 ∧ commonY q c ≠ 0 then e else 0), sum_common_err] at key
  exact key

theorem mem_zip_val {ii jj : List ℕ} {areas : List Fl} {i j : ℕ} {y : ℚ} :
    (i, j, y) ∈ ii.zip (jj.zip (areas.map val)) ↔ ∃ x, (i, j, x) ∈ ii.zip (jj.zip areas) ∧ y = val x := by
  have e : ii.zip (jj.zip (areas.map val)) = (ii.zip (jj.zip areas)).map fun x => (x.1, x.2.1, val x.2.2) := by
    induction ii generalizing jj areas with
    | nil => rfl
    | cons a ii ih =>
      match jj, areas with
      | [], _ => rfl
      | _ :: _, [] => rfl
      | b :: jj, c :: areas =>
        simp only [List.zip_cons_cons, List.map_cons]
        rw [ih]
  rw [e, List.mem_map]
  constructor
  · rintro ⟨⟨i', j', x⟩, hx, he⟩
    simp only [Prod.mk.injEq] at he
    obtain ⟨rfl, rfl, rfl⟩ := he
    exact ⟨x, hx, rfl⟩
  · rintro ⟨x, hx, rfl⟩
    exact ⟨_, hx, rfl⟩

theorem commonX_comm (a c : Box ℚ) : commonX a c = commonX c a := by unfold commonX; rw [min_comm, max_comm a.xmin]

theorem commonY_comm (a c : Box ℚ) : commonY a c = commonY c a := by unfold commonY; rw [min_comm, max_comm a.ymin]

theorem rectAcc_comm (a c : Box ℚ) : rectAcc M a c = rectAcc M c a := by
  unfold rectAcc; rw [commonX_comm, commonY_comm]

/-- The totals of the rows of a table. -/
theorem row_totals {ii jj : List ℕ} {areas : List Fl} (h1 : ii.length = jj.length) (h2 : jj.length = areas.length)
    (hnd : (ii.zip jj).Nodup) (hM : 0 ≤ M) {q : Box ℚ} (hx : q.xmin ≤ q.xmax) (hy : q.ymin ≤ q.ymax) {cs : List (Box ℚ)} {i : ℕ}
    (hlt : ∀ j x, (i, j, x) ∈ ii.zip (jj.zip areas) → j < cs.length)
    (h : ∀ j c, cs[j]? = some c → ∃ a, 0 ≤ a ∧ |a - commonX q c * commonY q c| ≤ rectAcc M q c ∧
      (commonX q c = 0 ∨ commonY q c = 0 → a = 0) ∧ ∀ x, (i, j, x) ∈ ii.zip (jj.zip areas) ↔ x = fin a ∧ 0 < a) :
    |total ii (areas.map val) i - (cs.map fun c => commonX q c * commonY q c).sum| ≤ totalAcc M q cs := by
  have h2' : jj.length = (areas.map val).length := by rw [List.length_map]; exact h2
  have e : ∀ j y, (j, y) ∈ (((ii.zip (jj.zip (areas.map val))).filter fun x => x.1 = i).map (·.2)) ↔
      (i, j, y) ∈ ii.zip (jj.zip (areas.map val)) := by
    intro j y
    simp only [List.mem_map, List.mem_filter, decide_eq_true_eq]
    constructor
    · rintro ⟨x, ⟨hm, rfl⟩, h'⟩
      rw [← h']; exact hm
    · intro h
      exact ⟨_, ⟨h, rfl⟩, rfl⟩
  rw [total_row h1 h2']
  refine total_near hM hx hy (nodup_row h1 h2' hnd i) ?_ ?_
  · intro j y hy
    obtain ⟨x, hx, _⟩ := mem_zip_val.1 ((e j y).1 hy)
    exact hlt j x hx
  · intro j c hc
    obtain ⟨a, a1, a2, a3, a4⟩ := h j c hc
    refine ⟨a, a1, a2, a3, fun y => ?_⟩
    rw [e, mem_zip_val]
    constructor
    · rintro ⟨x, hx, rfl⟩
      obtain ⟨rfl, h0⟩ := (a4 x).1 hx
      exact ⟨rfl, h0⟩
    · rintro ⟨rfl, h0⟩
      exact ⟨fin y, (a4 _).2 ⟨rfl, h0⟩, rfl⟩

/-- The totals of the columns of a table. -/
theorem col_totals {ii jj : List ℕ} {areas : List Fl} (h1 : ii.length = jj.length) (h2 : jj.length = areas.length)
    (hnd : (ii.zip jj).Nodup) (hM : 0 ≤ M) {q : Box ℚ} (hx : q.xmin ≤ q.xmax) (hy : q.ymin ≤ q.ymax) {cs : List (Box ℚ)} {j : ℕ}
    (hlt : ∀ i x, (i, j, x) ∈ ii.zip (jj.zip areas) → i < cs.length)
    (h : ∀ i c, cs[i]? = some c → ∃ a, 0 ≤ a ∧ |a - commonX c q * commonY c q| ≤ rectAcc M c q ∧
      (commonX c q = 0 ∨ commonY c q = 0 → a = 0) ∧ ∀ x, (i, j, x) ∈ ii.zip (jj.zip areas) ↔ x = fin a ∧ 0 < a) :
    |total jj (areas.map val) j - (cs.map fun c => commonX q c * commonY q c).sum| ≤ totalAcc M q cs := by
  have h2' : jj.length = (areas.map val).length := by rw [List.length_map]; exact h2
  have e : ∀ i y, (i, y) ∈ (((ii.zip (jj.zip (areas.map val))).filter fun x => x.2.1 = j).map fun x => (x.1, x.2.2)) ↔
      (i, j, y) ∈ ii.zip (jj.zip (areas.map val)) := by
    intro i y
    simp only [List.mem_map, List.mem_filter, decide_eq_true_eq, Prod.mk.injEq]
    constructor
    · rintro ⟨⟨i', j', x⟩, ⟨hm, rfl⟩, rfl, rfl⟩
      exact hm
    · intro h
      exact ⟨_, ⟨h, rfl⟩, rfl, rfl⟩
  rw [total_col h1 h2']
  refine total_near hM hx hy (nodup_col h1 h2' hnd j) ?_ ?_
  · intro i y hy
    obtain ⟨x, hx, _⟩ := mem_zip_val.1 ((e i y).1 hy)
    exact hlt i x hx
  · intro i c hc
    obtain ⟨a, a1, a2, a3, a4⟩ := h i c hc
    rw [commonX_comm c q, commonY_comm c q] at a2 a3
    rw [rectAcc_comm] at a2
    refine ⟨a, a1, a2, a3, fun y => ?_⟩
    rw [e, mem_zip_val]
    constructor
    · rintro ⟨x, hx, rfl⟩
      obtain ⟨rfl, h0⟩ := (a4 x).1 hx
      exact ⟨rfl, h0⟩
    · rintro ⟨rfl, h0⟩
      exact ⟨fin y, (a4 _).2 ⟨rfl, h0⟩, rfl⟩

theorem RectsOf.all {cs : List (Box ℚ)} (h : RectsOf M vertices fill faces cs) :
    ∀ r ∈ faces.rows, ∃ c, IsRect (facePts vertices fill r) c ∧ GoodRect M c := by
  unfold RectsOf at h
  generalize faces.rows = rows at h
  induction h with
  | nil => intro r hr; cases hr
  | cons hd _ ih =>
    intro r hr
    rcases List.mem_cons.1 hr with rfl | hr
    · exact ⟨_, hd⟩
    · exact ih r hr

theorem RectsOf.length {cs : List (Box ℚ)} (h : RectsOf M vertices fill faces cs) : faces.rows.length = cs.length :=
  List.Forall₂.length_eq h

theorem RectsOf.get {cs : List (Box ℚ)} (h : RectsOf M vertices fill faces cs) {j : Nat} {c : Box ℚ} (hj : cs[j]? = some c) :
    ∃ s, faces.rows[j]? = some s ∧ IsRect (facePts vertices fill s) c ∧ GoodRect M c := by
  unfold RectsOf at h
  generalize faces.rows = rows at h
  induction h generalizing j with
  | nil => cases hj
  | cons hd _ ih =>
    cases j with
    | zero => cases hj; exact ⟨_, rfl, hd⟩
    | succ j => exact ih hj

/-- **C93** (boxes): in a mesh of rectangles, the areas that `intersect_boxes` reports in binary64 for a box add up to what the
box has in common with the faces; if the faces tile the box, to the area of the box. -/
theorem C93_box_totals (hm : GoodMesh Fl.env vertices faces fill)
    (ht : Makes Fl.env vertices faces fill nBuckets cellsPerLeaf t) (hM : 1 / 2 ^ 100 ≤ M) (hM' : M ≤ 2 ^ 198)
    {cs : List (Box ℚ)} (hcs : RectsOf M vertices fill faces cs) {boxes : List (Box ℚ)} (hbox : ∀ q ∈ boxes, GoodRect M q)
    {nThreads : Nat} (hn : 0 < nThreads) {sched : List Nat} {sched2 : Nat → List Nat}
    (hs : sched.Perm (List.range nThreads)) (hs2 : ∀ n, (sched2 n).Perm (List.range n)) :
    ∃ ii jj areas, t.intersectBoxes (boxes.map fbox) nThreads sched sched2 = .ok (ii, jj, areas) ∧
      ∀ i q, boxes[i]? = some q →
        |total ii (areas.map val) i - (cs.map fun c => commonX q c * commonY q c).sum| ≤ totalAcc M q cs ∧
        (Tiles cs q → |total ii (areas.map val) i - (q.xmax - q.xmin) * (q.ymax - q.ymin)| ≤ totalAcc M q cs) := by
  have hM0 : 0 ≤ M := le_trans (by positivity) hM
  obtain ⟨ii, jj, areas, h1, h2, h3, h4, _, h5, h6⟩ := C92_intersect_boxes_accuracy hm ht hM hM' hcs.all hbox hn hs hs2
  refine ⟨ii, jj, areas, h1, fun i q hq => ?_⟩
  obtain ⟨px, py⟩ := (hbox q (List.mem_of_getElem? hq)).pos hM hM'
  have key : |total ii (areas.map val) i - (cs.map fun c => commonX q c * commonY q c).sum| ≤ totalAcc M q cs := by
    refine row_totals h2 h3 h4 hM0 px.le py.le (fun j x hx => hcs.length ▸ (h5 i j x hx).2) fun j c hc => ?_
    obtain ⟨s, g1, g2, g3⟩ := hcs.get hc
    exact h6 i j q s c hq g1 g2 g3
  exact ⟨key, fun ht => by rw [ht.sum px py] at key; exact key⟩

/-- **C93** (faces): the same for `intersect_faces` with rectangles as query faces, for the totals of the query faces and for the
totals of the faces of the mesh. -/
theorem C93_face_totals (hm : GoodMesh Fl.env vertices faces fill)
    (ht : Makes Fl.env vertices faces fill nBuckets cellsPerLeaf t) (hM : 1 / 2 ^ 100 ≤ M) (hM' : M ≤ 2 ^ 198)
    {cs qs : List (Box ℚ)} (hcs : RectsOf M vertices fill faces cs)
    (hvA : ValidFaces verticesA.length fillA facesA) (hcolA : facesA.ncol ≤ maxNVertex) (hqs : RectsOf M verticesA fillA facesA qs)
    {h : Heap} {ref : Nat} (href : h[ref]? = some facesA)
    {nThreads : Nat} (hn : 0 < nThreads) {sched sched1 : List Nat} {sched2 sched3 : Nat → List Nat}
    (hs : sched.Perm (List.range facesA.rows.length)) (hs1 : sched1.Perm (List.range nThreads))
    (hs2 : ∀ n, (sched2 n).Perm (List.range n)) (hs3 : ∀ n, (sched3 n).Perm (List.range n)) :
    ∃ h' ii jj areas, t.intersectFacesH Fl.env h verticesA ref fillA nThreads sched sched1 sched2 sched3 =
        .ok (h', ii, jj, areas) ∧
      (∀ i q, qs[i]? = some q →
        |total ii (areas.map val) i - (cs.map fun c => commonX q c * commonY q c).sum| ≤ totalAcc M q cs ∧
        (Tiles cs q → |total ii (areas.map val) i - (q.xmax - q.xmin) * (q.ymax - q.ymin)| ≤ totalAcc M q cs)) ∧
      ∀ j c, cs[j]? = some c →
        |total jj (areas.map val) j - (qs.map fun q => commonX c q * commonY c q).sum| ≤ totalAcc M c qs ∧
        (Tiles qs c → |total jj (areas.map val) j - (c.xmax - c.xmin) * (c.ymax - c.ymin)| ≤ totalAcc M c qs) := by
  have hM0 : 0 ≤ M := le_trans (by positivity) hM
  obtain ⟨h', ii, jj, areas, h1, h2, h3, h4, _, h5, h6⟩ :=
    C92_intersect_faces_accuracy hm ht hM hM' hcs.all hvA hcolA hqs.all href hn hs hs1 hs2 hs3
  refine ⟨h', ii, jj, areas, h1, fun i q hq => ?_, fun j c hc => ?_⟩
  · obtain ⟨r, r1, r2, r3⟩ := hqs.get hq
    obtain ⟨px, py⟩ := r3.pos hM hM'
    have key : |total ii (areas.map val) i - (cs.map fun c => commonX q c * commonY q c).sum| ≤ totalAcc M q cs := by
      refine row_totals h2 h3 h4 hM0 px.le py.le (fun j x hx => hcs.length ▸ (h5 i j x hx).2) fun j c hc => ?_
      obtain ⟨s, g1, g2, g3⟩ := hcs.get hc
      exact h6 i j r s q c r1 g1 r2 r3 g2 g3
    exact ⟨key, fun ht => by rw [ht.sum px py] at key; exact key⟩
  · obtain ⟨s, s1, s2, s3⟩ := hcs.get hc
    obtain ⟨px, py⟩ := s3.pos hM hM'
    have key : |total jj (areas.map val) j - (qs.map fun q => commonX c q * commonY c q).sum| ≤ totalAcc M c qs := by
      refine col_totals h2 h3 h4 hM0 px.le py.le (fun i x hx => hqs.length ▸ (h5 i j x hx).1) fun i q hq => ?_
      obtain ⟨r, g1, g2, g3⟩ := hqs.get hq
      exact h6 i j r s q c g1 s1 g2 g3 s2 s3
    exact ⟨key, fun ht => by rw [ht.sum px py] at key; exact key⟩

/-! ## The hypotheses can be met -/

theorem dec_tiles : Tiles [Ex.decCell, Ex.decCell2] ⟨Ex.dec1, Ex.dec3, Ex.dec1, Ex.dec2⟩ := by
  refine ⟨by decide +kernel, ?_⟩
  rintro p ⟨h1, h2, h3, h4⟩
  simp only at h1 h2 h3 h4
  have h5 : Ex.dec2 ≤ Ex.dec3 := by decide +kernel
  rcases le_total p.x Ex.dec2 with h | h
  · exact ⟨Ex.decCell, by simp, h1, h, h3, h4.trans h5⟩
  · exact ⟨Ex.decCell2, by simp, h, h2, h3, h4.trans h5⟩

/-- The areas of the two cells in the lower half of the mesh add up to `0.02`. -/
example : ∃ (t : CellTree Fl) (ii jj : List Nat) (areas : List Fl), Makes Fl.env Ex.decVerts Ex.decFaces (-1) 4 2 t ∧
    t.intersectBoxes (Ex.decBoxes.map fbox) 1 [0] List.range = .ok (ii, jj, areas) ∧
    |total ii (areas.map val) 0 - 2 / 100| ≤ 1 / 10 ^ 11 := by
  obtain ⟨t, h1, _⟩ := Ex.dec_run
  obtain ⟨ii, jj, areas, g1, g2⟩ := C93_box_totals (M := 1) (cs := [Ex.decCell, Ex.decCell2]) Ex.dec_good h1 (by norm_num) (by norm_num)
    (.cons ⟨Ex.decCell_rect, Ex.decCell_good⟩ (.cons ⟨Ex.decCell2_rect, Ex.decCell2_good⟩ .nil)) Ex.decBoxes_good
    (nThreads := 1) (by decide) (sched := [0]) (sched2 := List.range) (by decide) (fun n => List.Perm.refl _)
  have a2 := (g2 0 _ rfl).2 dec_tiles
  have e1 : totalAcc 1 ⟨Ex.dec1, Ex.dec3, Ex.dec1, Ex.dec2⟩ [Ex.decCell, Ex.decCell2] ≤ 1 / 10 ^ 12 := by decide +kernel
  have e2 : |(Ex.dec3 - Ex.dec1) * (Ex.dec2 - Ex.dec1) - 2 / 100| ≤ 1 / 10 ^ 15 := by decide +kernel
  refine ⟨t, ii, jj, areas, h1, g1, ?_⟩
  simp only at a2
  rw [abs_le] at a2 e2 ⊢
  constructor <;> linarith [a2.1, a2.2, e2.1, e2.2]

end Celltree.Fl
