import Verif.Props.FloatWholeMoves
import Verif.Props.FloatDyadic

/-!
# Edges with ends in a face, at integer coordinates in binary64: C132
-/

set_option linter.unusedSectionVars false

namespace Celltree.Fl

variable {env : Env Fl} {vertices : List (Pt Fl)} {faces : IntArr} {fill nBuckets cellsPerLeaf : Int} {t : CellTree Fl}
  {cs : List (List (Pt ℚ))} {m f tol : ℚ}

theorem clip_first {a b p q : Pt ℚ} {S : Pt ℚ → Prop} (h : ClipSpec a b S (some (p, q))) (ha : S a) : p = a := by
  obtain ⟨s, v, h0, _, _, rfl, _, h5⟩ := h
  have e0 : lineAt a b 0 = a := by apply Pt.ext' <;> simp [lineAt]
  have := ((h5 0 le_rfl zero_le_one).1 (by rwa [e0])).1
  rw [le_antisymm this h0, e0]

theorem clip_second {a b p q : Pt ℚ} {S : Pt ℚ → Prop} (h : ClipSpec a b S (some (p, q))) (hb : S b) : q = b :=
  clip_first h.reverse hb

theorem zip_third {α β γ : Type} {l : List α} {l' : List β} {l'' : List γ} (h : l'.length = l''.length) {x : α} {y : β}
    (hx : (x, y) ∈ l.zip l') : ∃ z, (x, y, z) ∈ l.zip (l'.zip l'') := by
  obtain ⟨k, hk⟩ := List.mem_iff_getElem?.1 hx
  obtain ⟨k1, k2⟩ := List.getElem?_zip_eq_some.1 hk
  have hl : k < l''.length := by rw [← h]; exact (List.getElem?_eq_some_iff.1 k2).1
  refine ⟨l''[k], List.mem_iff_getElem?.2 ⟨k, List.getElem?_zip_eq_some.2 ⟨k1, List.getElem?_zip_eq_some.2 ⟨k2, ?_⟩⟩⟩⟩
  exact List.getElem?_eq_getElem hl

/-- **C132**: ends of an edge that are in a face are kept as they are in the reported piece, without rounding. An edge with both ends in a
face, also on its sides or in its corners, is reported with this face as a whole. -/
theorem C132_ends_kept (hT : Tols env m f) (hm' : m ≤ 1 / 2 ^ 20) (hf : f ≤ 1 / 2 ^ 38) (hm : WholeMesh env vertices faces fill cs)
    (ht : Makes env vertices faces fill nBuckets cellsPerLeaf t) {edges : List (Pt ℚ × Pt ℚ)} (he : ClearEdges cs edges)
    {nThreads : Nat} (hn : 0 < nThreads) {sched : List Nat} (hs : sched.Perm (List.range nThreads)) :
    ∃ ii jj xy, t.intersectEdges env (edges.map fun e => (fp e.1, fp e.2)) nThreads sched = .ok (ii, jj, xy) ∧
      ∀ i j e c, edges[i]? = some e → cs[j]? = some c →
        (∀ cd, (i, j, cd) ∈ ii.zip (jj.zip xy) →
          (InPoly c e.1 → cd.1 = some (fp e.1)) ∧ (InPoly c e.2 → cd.2 = some (fp e.2))) ∧
        (e.1 ≠ e.2 → InPoly c e.1 → InPoly c e.2 →
          ∀ cd, (i, j, cd) ∈ ii.zip (jj.zip xy) ↔ cd = (some (fp e.1), some (fp e.2))) := by
  obtain ⟨ii, jj, xy, h1, _, l2, _, _, h2, h3⟩ := C129_pieces_exact_partial hT hm' hf hm.good ht hm.faces hm.small he hn hs
  refine ⟨ii, jj, xy, h1, fun i j e c hi hj => ?_⟩
  have keep : ∀ cd, (i, j, cd) ∈ ii.zip (jj.zip xy) →
      (InPoly c e.1 → cd.1 = some (fp e.1)) ∧ (InPoly c e.2 → cd.2 = some (fp e.2)) := by
    intro cd hx
    obtain ⟨e', c', p, q, p', q', g1, g2, rfl, g3, ⟨u, rfl, a1, _⟩, v, rfl, b1, _⟩ := h3 i j cd hx
    cases hi.symm.trans g1
    cases hj.symm.trans g2
    refine ⟨fun hin => ?_, fun hin => ?_⟩
    · have hp := clip_first g3 hin
      rw [a1 (Or.inl hp), hp]
    · have hq := clip_second g3 hin
      rw [b1 (Or.inr hq), hq]
  refine ⟨keep, fun hne hin1 hin2 cd => ⟨fun hx => ?_, ?_⟩⟩
  · obtain ⟨k1, k2⟩ := keep cd hx
    exact Prod.ext (k1 hin1) (k2 hin2)
  · rintro rfl
    have e0 : lineAt e.1 e.2 0 = e.1 := by apply Pt.ext' <;> simp [lineAt]
    have e1 : lineAt e.1 e.2 1 = e.2 := by apply Pt.ext' <;> simp [lineAt]
    obtain ⟨cd, hx⟩ := zip_third l2 ((h2 i j).2 ⟨e, c, hi, hj, hne, 0, 1, le_rfl, zero_lt_one, le_rfl, by rwa [e0], by rwa [e1]⟩)
    obtain ⟨k1, k2⟩ := keep cd hx
    rwa [show cd = (some (fp e.1), some (fp e.2)) from Prod.ext (k1 hin1) (k2 hin2)] at hx

/-- **C132**, two queries: if `locate_points` finds the same face for both ends of an edge then `intersect_edges` reports the edge with this
face, as a whole and unchanged. -/
theorem C132_located_edges (hT : Tols env m f) (hm' : m ≤ 1 / 2 ^ 20) (hf : f ≤ 1 / 2 ^ 38) (hm : WholeMesh env vertices faces fill cs)
    (ht : Makes env vertices faces fill nBuckets cellsPerLeaf t) (hrep : ∀ v ∈ vertices, Rep v.x ∧ Rep v.y)
    {edges : List (Pt ℚ × Pt ℚ)} (he : ClearEdges cs edges) {otol : Option Fl} (htol : t.tolerance env otol = .ok (fin tol))
    (t1 : 1 / 2 ^ 200 ≤ tol) (t2 : tol ≤ 1 / 2 ^ 20) {nThreads : Nat} (hn : 0 < nThreads) {sched sched' : List Nat}
    (hs : sched.Perm (List.range nThreads)) (hs' : sched'.Perm (List.range edges.length)) :
    ∃ ii jj xy first second, t.intersectEdges env (edges.map fun e => (fp e.1, fp e.2)) nThreads sched = .ok (ii, jj, xy) ∧
      t.locatePoints env (edges.map fun e => fp e.1) otol sched' = .ok first ∧
      t.locatePoints env (edges.map fun e => fp e.2) otol sched' = .ok second ∧
      ∀ (i j : Nat) (e : Pt ℚ × Pt ℚ), edges[i]? = some e → e.1 ≠ e.2 → first[i]? = some (j : Int) → second[i]? = some (j : Int) →
        ∀ cd, (i, j, cd) ∈ ii.zip (jj.zip xy) ↔ cd = (some (fp e.1), some (fp e.2)) := by
  obtain ⟨ii, jj, xy, h1, h2⟩ := C132_ends_kept hT hm' hf hm ht he hn hs
  have hfaces : ∀ r ∈ faces.rows, ∃ l, FaceIs vertices fill r l ∧ ConvexPoly l ∧ WholePoly l := by
    intro r hr
    obtain ⟨k, hk⟩ := List.mem_iff_getElem?.1 hr
    obtain ⟨c, _, g1, g2, g3⟩ := hm.faces.at hk
    exact ⟨c, g1, g2.convex, g3⟩
  have loc : ∀ g : Pt ℚ × Pt ℚ → Pt ℚ, (∀ e ∈ edges, WholePt (g e)) →
      ∃ res, t.locatePoints env (edges.map fun e => fp (g e)) otol sched' = .ok res ∧
        ∀ (i j : Nat) (e : Pt ℚ × Pt ℚ), edges[i]? = some e → res[i]? = some (j : Int) → ∃ c, cs[j]? = some c ∧ InPoly c (g e) := by
    intro g hg
    obtain ⟨res, k1, k2⟩ := C121_locate_exact (points := edges.map fun e => fp (g e)) (sched := sched') hm.good ht hrep
      (by rw [List.length_map]; exact hs') htol t1 t2 hfaces
    refine ⟨res, k1, fun i j e hi hj => ?_⟩
    obtain ⟨v, k3, k4, _⟩ := k2 i (g e) (by rw [List.getElem?_map, hi]; rfl) (hg e (List.mem_of_getElem? hi))
    cases hj.symm.trans k3
    obtain ⟨j', r, l, ej, k5, k6, k7, k8⟩ := k4 (by omega)
    cases Int.ofNat.inj ej
    obtain ⟨c, g1, g2, g3, _⟩ := hm.faces.at k5
    refine ⟨c, g1, ?_⟩
    rw [← g3.convex.inFace]
    rcases FaceIs.same k6 g2 with rfl | rfl
    · exact Or.inl k8
    · exact inFace_reverse.2 (Or.inl k8)
  obtain ⟨first, f1, f2⟩ := loc Prod.fst fun e hmem => (he e hmem).1.first
  obtain ⟨second, s1, s2⟩ := loc Prod.snd fun e hmem => (he e hmem).1.second
  refine ⟨ii, jj, xy, first, second, h1, f1, s1, fun i j e hi hne hj hj' => ?_⟩
  obtain ⟨c, g1, g2⟩ := f2 i j e hi hj
  obtain ⟨c', g1', g2'⟩ := s2 i j e hi hj'
  cases g1.symm.trans g1'
  exact (h2 i j e c hi g1).2 hne g2 g2'

/-! ## A concrete case -/

set_option synthInstance.maxSize 1000

/-- An edge between two sides of the first cell, and one that starts in the first cell and ends outside. -/
def _root_.Celltree.Ex.sideEdges : List (Pt ℚ × Pt ℚ) := [(⟨155000, 463005⟩, ⟨155005, 463005⟩), (⟨155000, 463004⟩, ⟨155020, 463004⟩)]

theorem _root_.Celltree.Ex.side_ok : ∀ e ∈ Ex.sideEdges, Run e.1 e.2 ∧ Compass e.1 e.2 := by
  intro e he
  simp only [Ex.sideEdges, List.mem_cons, List.not_mem_nil, or_false] at he
  rcases he with rfl | rfl
  · exact ⟨Ex.whole_run (Ex.wholePoly_iff (by decide +kernel) (by decide +kernel)) (by decide +kernel) (by decide +kernel), by unfold Compass; decide +kernel⟩
  · exact ⟨Ex.whole_run (Ex.wholePoly_iff (by decide +kernel) (by decide +kernel)) (by decide +kernel) (by decide +kernel), by unfold Compass; decide +kernel⟩

/-- The first edge has both ends on sides of the first cell: it is reported unchanged, and the second one starts where it is given. -/
example : ∃ t ii jj xy, Makes Fl.env Ex.wholeVerts Ex.wholeFaces (-1) 4 2 t ∧
    t.intersectEdges Fl.env (Ex.sideEdges.map fun e => (fp e.1, fp e.2)) 1 [0] = .ok (ii, jj, xy) ∧
    (∀ cd, (0, 0, cd) ∈ ii.zip (jj.zip xy) ↔ cd = (some (fp ⟨155000, 463005⟩), some (fp ⟨155005, 463005⟩))) ∧
    ∀ cd, (1, 0, cd) ∈ ii.zip (jj.zip xy) → cd.1 = some (fp ⟨155000, 463004⟩) := by
  obtain ⟨t, h1, _⟩ := bind_eq_ok.1 (show (CellTree.init Fl.env Ex.wholeVerts Ex.wholeFaces (-1) 4 2 [0, 1] >>= fun t => .ok 0) =
    (.ok 0 : M Nat) by decide +kernel)
  have hmk : Makes Fl.env Ex.wholeVerts Ex.wholeFaces (-1) 4 2 t := ⟨_, by decide, h1⟩
  obtain ⟨ii, jj, xy, g1, g2⟩ := C132_ends_kept Ex.gable_tols (by decide +kernel) (by decide +kernel) Ex.whole_mesh hmk
    (ClearEdges.of_compass Ex.side_ok) (nThreads := 1) (by decide) (sched := [0]) (by decide)
  exact ⟨t, ii, jj, xy, hmk, g1, (g2 0 0 _ _ rfl rfl).2 (by decide +kernel) (by decide +kernel) (by decide +kernel),
    fun cd h => ((g2 1 0 _ _ rfl rfl).1 cd h).1 (by decide +kernel)⟩

/-- The hypotheses of the second statement hold with the default tolerance. -/
example : ∃ t ii jj xy first second, Makes Fl.env Ex.wholeVerts Ex.wholeFaces (-1) 4 2 t ∧
    t.intersectEdges Fl.env (Ex.sideEdges.map fun e => (fp e.1, fp e.2)) 1 [0] = .ok (ii, jj, xy) ∧
    t.locatePoints Fl.env (Ex.sideEdges.map fun e => fp e.1) none [0, 1] = .ok first ∧
    t.locatePoints Fl.env (Ex.sideEdges.map fun e => fp e.2) none [0, 1] = .ok second ∧
    ∀ (i j : Nat) (e : Pt ℚ × Pt ℚ), Ex.sideEdges[i]? = some e → e.1 ≠ e.2 → first[i]? = some (j : Int) → second[i]? = some (j : Int) →
      ∀ cd, (i, j, cd) ∈ ii.zip (jj.zip xy) ↔ cd = (some (fp e.1), some (fp e.2)) := by
  obtain ⟨t, h1, _⟩ := bind_eq_ok.1 (show (CellTree.init Fl.env Ex.wholeVerts Ex.wholeFaces (-1) 4 2 [0, 1] >>= fun t => .ok 0) =
    (.ok 0 : M Nat) by decide +kernel)
  have hmk : Makes Fl.env Ex.wholeVerts Ex.wholeFaces (-1) 4 2 t := ⟨_, by decide, h1⟩
  obtain ⟨tol, e1, e2, e3⟩ := C121_default_tolerance Ex.whole_good hmk Ex.whole_faces
  obtain ⟨ii, jj, xy, a, b, g⟩ := C132_located_edges Ex.gable_tols (by decide +kernel) (by decide +kernel) Ex.whole_mesh hmk Ex.whole_verts_rep
    (ClearEdges.of_compass Ex.side_ok) e1 e2 e3 (nThreads := 1) (by decide) (sched := [0]) (sched' := [0, 1]) (by decide) (by decide)
  exact ⟨t, ii, jj, xy, a, b, hmk, g⟩

end Celltree.Fl
