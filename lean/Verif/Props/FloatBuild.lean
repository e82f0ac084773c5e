import Verif.Proofs.FloatWiden
import Verif.Props.BuildOk
import Verif.Props.FloatFaces

/-!
# When construction succeeds in binary64: C79, C58
-/

set_option linter.unusedSectionVars false

namespace Celltree
namespace Fl

open NumOrd

/-- **C79**: in binary64 the constructor returns for every non-empty mesh in which the bounding box of every face is wider
and higher than `2⁻⁴⁸` times the largest coordinate `M`. -/
theorem C79_construction_succeeds {vertices : List (Pt Fl)} {faces : IntArr} {fill nBuckets cellsPerLeaf : Int} {M : ℚ}
    (hm : GoodMesh Fl.env vertices faces fill) {sched : List Nat} (hs : sched.Perm (List.range faces.rows.length))
    (hb : 2 ≤ nBuckets) (hb' : nBuckets < 2 ^ 53) (hc : 1 ≤ cellsPerLeaf) (hcol : faces.ncol ≤ 32) (hne : faces.rows ≠ [])
    (hlen : faces.rows.length ≤ 2 ^ 63) (hM : 1 / 2 ^ 100 ≤ M) (hM' : M ≤ 2 ^ 400)
    (hbnd : ∀ r ∈ faces.rows, ∀ p ∈ facePts vertices fill r, ∃ q, p = fp q ∧ Bnd M q)
    (hwide : ∀ r ∈ faces.rows, ∃ a b, fp a ∈ facePts vertices fill r ∧ fp b ∈ facePts vertices fill r ∧
      a.x + M / 2 ^ 48 ≤ b.x)
    (hhigh : ∀ r ∈ faces.rows, ∃ a b, fp a ∈ facePts vertices fill r ∧ fp b ∈ facePts vertices fill r ∧
      a.y + M / 2 ^ 48 ≤ b.y) :
    ∃ t, CellTree.init Fl.env vertices faces fill nBuckets cellsPerLeaf sched = .ok t := by
  have h := CellTree.init_spec Fl.env nBuckets cellsPerLeaf hm.valid hm.num hm.max hm.min hs
  cases hi : CellTree.init Fl.env vertices faces fill nBuckets cellsPerLeaf sched with
  | ok t => exact ⟨t, rfl⟩
  | error e =>
    rw [hi] at h
    exfalso
    rcases h with ⟨_, h⟩ | ⟨_, _, coords, hbx, he⟩
    · rcases h with h | h | h | h
      · omega
      · omega
      · unfold maxNVertex at h; omega
      · exact hne h
    · refine not_buildErr_fl (M := M) (by simp only; omega) (by simp only; omega) ?_ ?_ hM hM' rfl rfl he
      · simp only; rw [hbx.length]; exact hlen
      · intro b hbm dim
        simp only at hbm
        obtain ⟨k, hk⟩ := List.mem_iff_getElem?.1 hbm
        have hlt := (List.getElem?_eq_some_iff.1 hk).1
        rw [hbx.length] at hlt
        obtain ⟨b', h1, h2⟩ := hbx.box k _ (List.getElem?_eq_getElem hlt)
        rw [hk] at h1
        cases h1
        have hr := List.getElem_mem hlt
        cases dim with
        | false =>
          obtain ⟨p, hp, hpx⟩ := h2.left
          obtain ⟨q, hq, hqx⟩ := h2.right
          obtain ⟨p, rfl, hp1⟩ := hbnd _ hr p hp
          obtain ⟨q, rfl, hq1⟩ := hbnd _ hr q hq
          obtain ⟨a, c, ha, hc, hac⟩ := hwide _ hr
          have h3 := (h2.contains _ ha).1
          have h4 := (h2.contains _ hc).2.1
          rw [← hpx] at h3
          rw [← hqx] at h4
          simp only [fp, le_fin] at h3 h4
          exact ⟨p.x, q.x, hpx.symm, hqx.symm, hp1.1, hq1.1, by linarith⟩
        | true =>
          obtain ⟨p, hp, hpx⟩ := h2.bottom
          obtain ⟨q, hq, hqx⟩ := h2.top
          obtain ⟨p, rfl, hp1⟩ := hbnd _ hr p hp
          obtain ⟨q, rfl, hq1⟩ := hbnd _ hr q hq
          obtain ⟨a, c, ha, hc, hac⟩ := hhigh _ hr
          have h3 := (h2.contains _ ha).2.2.1
          have h4 := (h2.contains _ hc).2.2.2
          rw [← hpx] at h3
          rw [← hqx] at h4
          simp only [fp, le_fin] at h3 h4
          exact ⟨p.y, q.y, hpx.symm, hqx.symm, hp1.2, hq1.2, by linarith⟩

/-- **C58** (binary64; partial: it fails if the network is small compared to its coordinates, see
`C58_far_network_violated`): the constructor of an edge tree returns for every network with at least one edge, also if edges
are axis-aligned or of length zero, if the extent of the network is at least `1/256` of the largest coordinate `M`. -/
theorem C58_binary64_partial {vertices : List (Pt Fl)} {edges : IntArr} {nBuckets cellsPerLeaf : Int} {M : ℚ}
    (hv : ValidEdges vertices.length edges) (hne : edges.rows ≠ []) (hlen : edges.rows.length ≤ 2 ^ 63) (hb : 2 ≤ nBuckets)
    (hb' : nBuckets < 2 ^ 53) (hc : 1 ≤ cellsPerLeaf) (hM : 1 / 2 ^ 40 ≤ M) (hM' : M ≤ 2 ^ 399)
    (hbnd : ∀ p ∈ vertices, ∃ q, p = fp q ∧ Bnd M q)
    (hext : ∃ a b, fp a ∈ vertices ∧ fp b ∈ vertices ∧ (a.x + M / 256 ≤ b.x ∨ a.y + M / 256 ≤ b.y)) :
    ∃ t, EdgeCellTree.init Fl.env vertices edges nBuckets cellsPerLeaf = .ok t := by
  obtain ⟨L, rfl, hL⟩ : ∃ L : List (Pt ℚ), vertices = L.map fp ∧ ∀ q ∈ L, Bnd M q := by
    clear hv hext hne
    induction vertices with
    | nil => exact ⟨[], rfl, by simp⟩
    | cons v l ih =>
      obtain ⟨q, rfl, hq⟩ := hbnd v (by simp)
      obtain ⟨l', rfl, hl'⟩ := ih fun v hv => hbnd v (by simp [hv])
      exact ⟨q :: l', rfl, by simpa using ⟨hq, hl'⟩⟩
  have hmem : ∀ {a : Pt ℚ}, fp a ∈ L.map fp → a ∈ L := by
    intro a ha
    obtain ⟨q, hq, h⟩ := List.mem_map.1 ha
    cases q; cases a
    simp only [fp, Pt.mk.injEq, Fl.fin.injEq] at h
    obtain ⟨rfl, rfl⟩ := h
    exact hq
  obtain ⟨τ, hτ, h1, h2⟩ := globalTolerance_fl hM hM' hL (by
    obtain ⟨a, b, ha, hb, h⟩ := hext
    exact ⟨a, hmem ha, b, hmem hb, h⟩)
  have hall : ∀ r ∈ edges.rows, ∃ p ∈ L, ∃ q ∈ L, edgeBoundingBox r (L.map fp) (fin τ) = .ok (edgeBox (fin τ) (fp p) (fp q)) := by
    intro r hr
    obtain ⟨v, w, rfl, g1, g2, g3, g4⟩ := hv r hr
    rw [List.length_map] at g2 g4
    have e1 : v.toNat < L.length := by omega
    have e2 : w.toNat < L.length := by omega
    exact ⟨_, List.getElem_mem e1, _, List.getElem_mem e2, edgeBoundingBox_eq g1 g3
      (by rw [List.getElem?_map, List.getElem?_eq_getElem e1]; rfl)
      (by rw [List.getElem?_map, List.getElem?_eq_getElem e2]; rfl) (fin τ)⟩
  obtain ⟨coords, hco, _⟩ := mapM_exists (f := fun r => edgeBoundingBox r (L.map fp) (fin τ)) (P := fun _ _ => True)
    edges.rows (fun r hr => let ⟨_, _, _, _, h⟩ := hall r hr; ⟨_, h, trivial⟩)
  obtain ⟨hcl, hel⟩ := mapM_eq_ok hco
  have hw : WideBoxes (2 * M) coords := by
    intro b hbm dim
    obtain ⟨k, hk⟩ := List.mem_iff_getElem?.1 hbm
    have hlt := (List.getElem?_eq_some_iff.1 hk).1
    rw [hcl] at hlt
    obtain ⟨b', e1, e2⟩ := hel k _ (List.getElem?_eq_getElem hlt)
    rw [hk] at e1
    cases e1
    obtain ⟨p, hp, q, hq, h⟩ := hall _ (List.getElem_mem hlt)
    rw [h] at e2
    cases e2
    cases dim with
    | false => exact widen_fl hM hM' (hL p hp).1 (hL q hq).1 h1 h2
    | true => exact widen_fl hM hM' (hL p hp).2 (hL q hq).2 h1 h2
  have hn : ∀ b ∈ coords, ∀ dim, num (b.lo dim) ∧ num (b.hi dim) := by
    intro b hbm dim
    obtain ⟨lo, hi, e1, e2, _⟩ := hw b hbm dim
    rw [e1, e2]
    exact ⟨(fun h => by cases h), (fun h => by cases h)⟩
  have hcne : coords ≠ [] := by
    rintro rfl
    exact hne (List.length_eq_zero_iff.1 hcl.symm)
  have hS := initTree_spec Fl.env edges.rows.length coords nBuckets.toNat cellsPerLeaf.toNat
    ⟨hn, (fun h => by cases h), (fun h => by cases h)⟩ hcl
  obtain ⟨bb, hbb, _⟩ := bboxTree_spec hcne hn
  unfold EdgeCellTree.init
  rw [if_neg (by omega), if_neg (by omega), hτ, ok_bind, show buildEdgeBboxes edges.rows (L.map fp) (fin τ) = .ok coords from hco,
    ok_bind]
  cases hI : initTree Fl.env edges.rows.length coords nBuckets.toNat cellsPerLeaf.toNat with
  | ok r =>
    rw [ok_bind, hbb]
    exact ⟨_, rfl⟩
  | error e =>
    rw [hI] at hS
    exfalso
    refine not_buildErr_fl (M := 2 * M) (by simp only; omega) (by simp only; omega) (by simp only; rw [hcl]; exact hlen) hw
      ?_ ?_ rfl rfl hS
    · refine (inv_le_inv_pow (j := 40) (by norm_num)).trans (hM.trans ?_)
      have : 0 < M := _root_.lt_of_lt_of_le (by norm_num) hM
      linarith
    · rw [show (400 : Nat) = 399 + 1 from rfl, pow_succ]
      generalize (2 : ℚ) ^ 399 = T at hM'
      linarith

/-! ## The hypotheses can be met -/

/-- Two cells with coordinates up to 110. -/
example : ∃ t, CellTree.init Fl.env Ex.nearVerts Ex.gridFaces (-1) 4 2 [1, 0] = .ok t :=
  C79_construction_succeeds (M := 110) Ex.near_good (by decide) (by decide) (by decide) (by decide) (by decide) (by decide)
    (by decide) (by norm_num) ((show (110 : ℚ) ≤ 2 ^ 7 by norm_num).trans (pow_le_pow_right₀ (by norm_num) (by norm_num)))
    (by
      have h : ∀ p ∈ Ex.nearVerts, ∃ q ∈ Ex.nearPts, p = fp q := by decide +kernel
      have h' : ∀ q ∈ Ex.nearPts, Bnd 110 q := by unfold Bnd; decide +kernel
      intro r hr p hp
      obtain ⟨q, hq, e⟩ := h p (facePts_mem hp)
      exact ⟨q, e, h' q hq⟩)
    (by
      have h : ∀ r ∈ Ex.gridFaces.rows, ∃ a ∈ Ex.nearPts, ∃ b ∈ Ex.nearPts, fp a ∈ facePts Ex.nearVerts (-1) r ∧
          fp b ∈ facePts Ex.nearVerts (-1) r ∧ a.x + 110 / 2 ^ 48 ≤ b.x := by decide +kernel
      intro r hr
      obtain ⟨a, _, b, _, h⟩ := h r hr
      exact ⟨a, b, h⟩)
    (by
      have h : ∀ r ∈ Ex.gridFaces.rows, ∃ a ∈ Ex.nearPts, ∃ b ∈ Ex.nearPts, fp a ∈ facePts Ex.nearVerts (-1) r ∧
          fp b ∈ facePts Ex.nearVerts (-1) r ∧ a.y + 110 / 2 ^ 48 ≤ b.y := by decide +kernel
      intro r hr
      obtain ⟨a, _, b, _, h⟩ := h r hr
      exact ⟨a, b, h⟩)

/-- Edges of the small network: horizontal, vertical and of length zero. -/
example : ∃ t, EdgeCellTree.init Fl.env (Ex.netVerts.map fp) Ex.netEdges 4 1 = .ok t :=
  C58_binary64_partial (M := 5) (by rw [List.length_map]; exact Ex.net_valid) (by decide) (by decide) (by decide) (by decide)
    (by decide) (by norm_num) ((show (5 : ℚ) ≤ 2 ^ 3 by norm_num).trans (pow_le_pow_right₀ (by norm_num) (by norm_num)))
    (by
      have h' : ∀ q ∈ Ex.netVerts, Bnd 5 q := by unfold Bnd; decide +kernel
      intro p hp
      obtain ⟨q, hq, rfl⟩ := List.mem_map.1 hp
      exact ⟨q, rfl, h' q hq⟩)
    ⟨⟨0, 0⟩, ⟨5, 0⟩, by decide +kernel, by decide +kernel, .inl (by norm_num)⟩

end Fl
end Celltree
