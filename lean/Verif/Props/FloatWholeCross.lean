import Verif.Proofs.FloatWholeCross
import Verif.Props.FloatCross
import Verif.Props.FloatWholeEdges

/-!
# Crossings of edges at integer coordinates in binary64: C123
-/

set_option linter.unusedSectionVars false

namespace Celltree.Fl

variable {env : Env Fl} {vertices : List (Pt Fl)} {edges : IntArr} {nBuckets cellsPerLeaf : Int} {t : CellTree Fl} {m f : ℚ}

/-- Two segments that count as meeting have a point in common. -/
theorem _root_.Celltree.Meet.share {a b p q : Pt ℚ} (h : Meet a b p q) : ∃ c, ShareAt a b p q c := by
  obtain ⟨_, _, h | ⟨_, _, h⟩⟩ := h
  · exact ⟨_, straddles_share (straddles_iff.2 h)⟩
  · exact h

theorem _root_.Celltree.ProperCross.meet {a b p q : Pt ℚ} (h : ProperCross a b p q) : Meet a b p q := by
  have hs := h.straddles
  refine ⟨?_, ?_, Or.inl (straddles_iff.1 hs)⟩
  · rintro rfl; exact hs.1 Iff.rfl
  · rintro rfl; exact hs.2 Iff.rfl

/-- **C123**, one pair: the test for two segments at integer coordinates of at most `2 ^ 25`, each at most `2 ^ 18` wide and high, is
exact in binary64. Reported segments have a point in common. Segments that cross, and segments on one line that share a point, are
reported. If an end of one is on the other the pair is reported from one side only, see `Meet`. The location of a crossing is within
`1 / 2 ^ 22` of the crossing. -/
theorem C123_pair_exact (hT : Tols env m f) (hm : m ≤ 1 / 2 ^ 20) (hf : f ≤ 1 / 2 ^ 38) {a b p q : Pt ℚ} (hab : WholePoly [a, b])
    (hpq : WholePoly [p, q]) : ∃ r c, linesIntersect env (fp a) (fp b) (fp p) (fp q) = .ok (r, c) ∧ (r = true ↔ Meet a b p q) ∧
      (r = true → ∃ y, ShareAt a b p q y) ∧ (ProperCross a b p q → r = true) ∧
      (PassesBetween p q a b → PassesBetween a b p q → ∃ x y, c = some (fp x) ∧ ShareAt a b p q y ∧ Within (1 / 2 ^ 22) x y) := by
  obtain ⟨r, c, h1, h2, h3⟩ := whole_linesIntersect hT hm hf (hab.corner a (by simp)) (hab.corner b (by simp))
    (hpq.corner p (by simp)) (hpq.corner q (by simp)) (hab.small a (by simp) b (by simp)) (hpq.small p (by simp) q (by simp))
  refine ⟨r, c, h1, h2, fun h => (h2.1 h).share, fun h => h2.2 h.meet, fun k1 k2 => ?_⟩
  have hs := straddles_iff.2 ⟨k1, k2⟩
  obtain ⟨x, e, w⟩ := h3 hs
  exact ⟨x, _, e, straddles_share hs, w⟩

section
variable (hv : ValidEdges vertices.length edges) (hT : Tols env m f) (hm : m ≤ 1 / 2 ^ 20) (hf : f ≤ 1 / 2 ^ 38)
  (hmax : env.floatMax ≠ nan) (hmin : env.floatMin ≠ nan)
  (ht : EdgeCellTree.init env vertices edges nBuckets cellsPerLeaf = .ok t)
  (hw : ∀ v ∈ vertices, ∃ q, v = fp q ∧ WholePt q)
  (hS : ∀ j a b, IsEdge vertices edges j (fp a) (fp b) → WholePoly [a, b])
  {queries : List (Pt Fl × Pt Fl)} {nThreads : Nat} (hn : 0 < nThreads) {sched : List Nat}
  (hs : sched.Perm (List.range nThreads))
include hv hT hm hf hmax hmin ht hw hS hn hs

/-- **C123**: nodes and queries at integer coordinates of at most `2 ^ 25`, edges and queries at most `2 ^ 18` wide and high, queries
that stay away from the corners of the box of the network. In binary64 `intersect_edges` of a network returns normally, and for every
query and every edge: if the pair is reported, the two count as meeting, and so have a point in common, exactly. If they count as
meeting, and the query passes through the box of the network and not only along its border, the pair is reported. Where they cross,
the location is given, and is within `1 / 2 ^ 22` of the crossing. -/
theorem C123_crossings_exact {C : Box ℚ} (hC : t.data.bbox = fbox C) (hCu : UsualBox (2 ^ 26) C)
    (hq : ∀ e ∈ queries, ∃ a b, e = (fp a, fp b) ∧ WholePoly [a, b] ∧ QueryClear (2 ^ 26) C a b) :
    ∃ ii jj xy, t.intersectEdgesOnEdge env queries nThreads sched = .ok (ii, jj, xy) ∧ ii.length = jj.length ∧
      jj.length = xy.length ∧ (ii.zip jj).Nodup ∧ ii.Pairwise (· ≤ ·) ∧
      ∀ i j a b p q, queries[i]? = some (fp a, fp b) → IsEdge vertices edges j (fp p) (fp q) →
        (∀ c, (i, j, c) ∈ ii.zip (jj.zip xy) → Meet a b p q ∧ (PassesBetween p q a b → PassesBetween a b p q →
          ∃ x y, c = some (fp x) ∧ ShareAt a b p q y ∧ Within (1 / 2 ^ 22) x y)) ∧
        (Meet a b p q → (∃ s, 0 ≤ s ∧ s ≤ 1 ∧ Deep (1 / 2 ^ 20) C (lineAt a b s)) → ∃ c, (i, j, c) ∈ ii.zip (jj.zip xy)) := by
  have hrep : ∀ v ∈ vertices, RepPt v := by
    intro v hv
    obtain ⟨q, rfl, hq⟩ := hw v hv
    exact ⟨q, rfl, Ex.whole_rep hq.1 (by norm_num), Ex.whole_rep hq.2 (by norm_num)⟩
  have ht0 : (0 : Fl) ≤ env.minTol := by
    rw [hT.min_eq, zero_def, le_fin]
    exact le_trans (by positivity) hT.m_ge
  obtain ⟨bt, τ, hτ, hc⟩ := edgeTree_fl hv hrep hmax hmin ht0 ht
  have inj : ∀ {a b : Pt ℚ}, fp a = fp b → a = b := by
    intro a b h
    unfold fp at h
    simp only [Pt.mk.injEq, Fl.fin.injEq] at h
    exact Pt.ext' h.1 h.2
  have hqc : ∀ (i : Nat) a b, queries[i]? = some (fp a, fp b) → WholePoly [a, b] ∧ QueryClear (2 ^ 26) C a b := by
    intro i a b h
    obtain ⟨a', b', e, h'⟩ := hq _ (List.mem_of_getElem? h)
    simp only [Prod.mk.injEq] at e
    rw [inj e.1, inj e.2]
    exact h'
  have htotal : ∀ e ∈ queries, EdgeTotal t.data (edgeEdgeIntersect env t.data) e.1 e.2 := by
    intro e he
    obtain ⟨a, b, rfl, hab, h⟩ := hq e he
    refine ⟨?_, fun nd _ _ => edgeSides_fl nd _ _ _, ?_⟩
    · rw [hC]
      obtain ⟨r, h, _⟩ := cohenSutherland_fl (by norm_num) (by norm_num) hCu h.first h.second h.corners h.ne
      exact ⟨r, h⟩
    · intro j hj
      rw [hc.length] at hj
      obtain ⟨p, q, hj⟩ := hv.isEdge hj
      obtain ⟨p, rfl, hp⟩ := hw _ hj.mem.1
      obtain ⟨q, rfl, hq⟩ := hw _ hj.mem.2
      obtain ⟨r, c, hl, _⟩ := C123_pair_exact hT hm hf hab (hS j p q hj)
      exact ⟨_, hc.isect hv hj hl⟩
  obtain ⟨hnd, hsorted⟩ := edgeAll_nodup (isect := edgeEdgeIntersect env t.data) hc.tree queries
  have hloc := locateEdges_spec hc.tree queries (fun e he => (htotal e he).runs hc.tree) hn hs
  refine ⟨_, _, _, by unfold CellTree.intersectEdgesOnEdge; rw [hloc]; rfl, by simp, by simp, ?_, hsorted, ?_⟩
  · rw [List.zip_map']
    exact hnd
  · intro i j a b p q hi hj
    rw [List.map_map, List.zip_map', List.zip_map']
    obtain ⟨hab, h⟩ := hqc i a b hi
    have ma := whole_modPt (hab.corner a (by simp))
    have mb := whole_modPt (hab.corner b (by simp))
    obtain ⟨r, c, hl, k1, k2, k3, k4⟩ := C123_pair_exact hT hm hf hab (hS j p q hj)
    constructor
    · intro c' hmem
      obtain ⟨⟨i', j', cd⟩, hx, he⟩ := List.mem_map.1 hmem
      simp only [Function.comp, Prod.mk.injEq] at he
      obtain ⟨rfl, rfl, rfl⟩ := he
      obtain ⟨⟨a', b'⟩, hq', hh⟩ := mem_edgeAll.1 hx
      rw [hi] at hq'
      cases hq'
      obtain ⟨_, g2, _⟩ := edgeHits_sound hc.tree hh
      simp only at g2
      rw [hc.isect hv hj hl] at g2
      cases g2
      exact ⟨k1.1 rfl, k4⟩
    · rintro hp ⟨s, s0, s1, hd⟩
      obtain rfl := k1.2 hp
      refine ⟨c, List.mem_map.2 ⟨(i, j, c, c), mem_edgeAll.2 ⟨_, hi, ?_⟩, rfl⟩⟩
      obtain ⟨_, u, v, u0, u1, v0, v1, e1, e2⟩ := hp.share
      refine edgeHits_complete hc.tree (hc.boxes j _ _ hj) (hc.isect hv hj hl) ?_ ?_ ?_
      · obtain ⟨r, g1, g2, _⟩ := cohenSutherland_fl (by norm_num) (by norm_num) hCu h.first h.second h.corners h.ne
        have : r ≠ none := by
          refine g2 (lineAt a b s) ?_ ⟨s, s0, s1, within_self le_rfl _⟩
          rw [cutErr_eq (by norm_num) (by norm_num) hCu h.first h.second h.corners]
          have e : (2 : ℚ) ^ 26 / 2 ^ 46 = 1 / 2 ^ 20 := by norm_num
          rw [e]
          exact hd
        obtain ⟨x, hx⟩ := Option.ne_none_iff_exists'.1 this
        exact ⟨x, by rw [hC, ← hx]; exact g1⟩
      · intro nd _
        exact (edgeBox_goes_down hτ ma mb (hrep _ hj.mem.1) (hrep _ hj.mem.2) u0 u1 v0 v1 (e1.symm.trans e2) nd).1
      · intro nd _
        exact (edgeBox_goes_down hτ ma mb (hrep _ hj.mem.1) (hrep _ hj.mem.2) u0 u1 v0 v1 (e1.symm.trans e2) nd).2

end

end Celltree.Fl

namespace Celltree

/-- A point strictly between `p` and `q`: the line through it and a point off the line `p q` passes between `p` and `q`. -/
theorem between_passes {p q a : Pt ℚ} {s : ℚ} (s0 : 0 < s) (s1 : s < 1) (ha : orient p q a ≠ 0) :
    PassesBetween a (lineAt p q s) p q ∧ PassesBetween (lineAt p q s) a p q := by
  have e1 : orient a (lineAt p q s) p = -s * orient p q a := by unfold orient lineAt; simp only; ring
  have e2 : orient a (lineAt p q s) q = (1 - s) * orient p q a := by unfold orient lineAt; simp only; ring
  have e3 : orient (lineAt p q s) a p = s * orient p q a := by unfold orient lineAt; simp only; ring
  have e4 : orient (lineAt p q s) a q = -(1 - s) * orient p q a := by unfold orient lineAt; simp only; ring
  unfold PassesBetween
  rw [e1, e2, e3, e4]
  rcases lt_or_gt_of_ne ha with h | h
  · refine ⟨Or.inl ⟨by nlinarith, by nlinarith⟩, Or.inr ⟨by nlinarith, by nlinarith⟩⟩
  · refine ⟨Or.inr ⟨by nlinarith, by nlinarith⟩, Or.inl ⟨by nlinarith, by nlinarith⟩⟩

/-- **C123**: a line of two segments that passes from the left of an edge to the right of it, with its corner on the edge, counts as
crossing the edge exactly once: the segment on the left counts, the one on the right does not. -/
theorem C123_corner_counted_once {a c p q : Pt ℚ} {s : ℚ} (s0 : 0 < s) (s1 : s < 1) (ha : 0 < orient p q a)
    (hc : orient p q c < 0) : Meet a (lineAt p q s) p q ∧ Meet (lineAt p q s) a p q ∧ ¬ Meet (lineAt p q s) c p q ∧
      ¬ Meet c (lineAt p q s) p q := by
  have hb : orient p q (lineAt p q s) = 0 := by unfold orient lineAt; simp only; ring
  have hpq : p ≠ q := by
    rintro rfl
    have : orient p p a = 0 := by unfold orient; ring
    linarith
  have hab : a ≠ lineAt p q s := by
    intro h
    rw [h, hb] at ha
    exact lt_irrefl _ ha
  obtain ⟨k1, k2⟩ := between_passes s0 s1 ha.ne'
  have none : ∀ x y, orient p q x ≤ 0 → orient p q y ≤ 0 → orient p q x ≠ orient p q y → ¬ Meet x y p q := by
    rintro x y hx hy hne ⟨_, _, ⟨h | h, _⟩ | ⟨h1, h2, _⟩⟩
    · linarith [h.1]
    · linarith [h.2]
    · have := orient_diff x y p q
      rw [h1, h2] at this
      exact hne (by linarith)
  exact ⟨⟨hab, hpq, Or.inl ⟨Or.inl ⟨ha, hb.le⟩, k1⟩⟩, ⟨hab.symm, hpq, Or.inl ⟨Or.inr ⟨hb.le, ha⟩, k2⟩⟩,
    none _ _ hb.le hc.le (by rw [hb]; exact hc.ne'), none _ _ hc.le hb.le (by rw [hb]; exact hc.ne)⟩

end Celltree

/-! ## Examples and limits -/

namespace Celltree.Fl

/-- A segment that ends on an edge is reported if it comes from the left of the edge, and not if it comes from the right. -/
theorem C123_touching : linesIntersect Fl.env (fp ⟨2, 0⟩) (fp ⟨2, 3⟩) (fp ⟨0, 0⟩) (fp ⟨4, 0⟩) = .ok (true, some (fp ⟨2, 0⟩)) ∧
    linesIntersect Fl.env (fp ⟨2, 0⟩) (fp ⟨2, -3⟩) (fp ⟨0, 0⟩) (fp ⟨4, 0⟩) = .ok (false, none) ∧
    ShareAt (⟨2, 0⟩ : Pt ℚ) ⟨2, -3⟩ ⟨0, 0⟩ ⟨4, 0⟩ ⟨2, 0⟩ := by
  refine ⟨by decide +kernel, by decide +kernel, 0, 1 / 2, by norm_num, by norm_num, by norm_num, by norm_num, ?_, ?_⟩ <;>
    decide +kernel

/-- The limit on the size is needed: two parallel segments of length about `2 ^ 21`, at different lines, are reported. -/
theorem C123_limit_matters :
    (∃ c, linesIntersect Fl.env (fp ⟨0, 0⟩) (fp ⟨2097152, 2097151⟩) (fp ⟨1, 1⟩) (fp ⟨2097153, 2097152⟩) = .ok (true, c)) ∧
    ¬ ∃ c, ShareAt (⟨0, 0⟩ : Pt ℚ) ⟨2097152, 2097151⟩ ⟨1, 1⟩ ⟨2097153, 2097152⟩ c := by
  refine ⟨⟨some (fp ⟨2097153 / 2, 1048576⟩), by decide +kernel⟩, ?_⟩
  rintro ⟨c, u, v, -, -, -, -, h1, h2⟩
  have e := h1.symm.trans h2
  have ex := congrArg Pt.x e
  have ey := congrArg Pt.y e
  simp only [lineAt] at ex ey
  linarith

end Celltree.Fl

set_option synthInstance.maxSize 1000

namespace Celltree.Ex

open Fl

/-- The box of the network. -/
def wholeNodesBox : Box ℚ := ⟨5325759447039999 / 2 ^ 35, 5326446641807361 / 2 ^ 35, 463000, 463009⟩

theorem wholeNodesBox_usual : UsualBox (2 ^ 26) wholeNodesBox := by
  have h1 : Usual (2 ^ 26) (5325759447039999 / 2 ^ 35) :=
    ⟨⟨5325759447039999, -35, by norm_num, by norm_num, by norm_num⟩, by decide +kernel, Or.inr (by decide +kernel)⟩
  have h2 : Usual (2 ^ 26) (5326446641807361 / 2 ^ 35) :=
    ⟨⟨5326446641807361, -35, by norm_num, by norm_num, by norm_num⟩, by decide +kernel, Or.inr (by decide +kernel)⟩
  have h3 : Usual (2 ^ 26) 463000 := usual_int (n := 463000) (by norm_num) (by norm_num)
  have h4 : Usual (2 ^ 26) 463009 := usual_int (n := 463009) (by norm_num) (by norm_num)
  exact ⟨h1, h2, h3, h4, by decide +kernel, by decide +kernel⟩

theorem usual_of_whole {p : Pt ℚ} (h : WholePt p) : UsualPt (2 ^ 26) p := by
  have key : ∀ x : ℚ, Whole 25 x → Usual (2 ^ 26) x := by
    rintro x ⟨n, rfl, hn⟩
    refine usual_int (lt_of_le_of_lt hn (by norm_num)) ?_
    have : |(n : ℚ)| ≤ 2 ^ 25 := by exact_mod_cast hn
    exact this.trans (by norm_num)
  exact ⟨key _ h.1, key _ h.2⟩

end Celltree.Ex

namespace Celltree.Fl

/-- Two queries on a network at whole metres: the first crosses an edge, the second ends on an edge. -/
example : ∃ t ii jj xy, EdgeCellTree.init Fl.env Ex.wholeNodes Ex.roofEdges 4 2 = .ok t ∧
    t.intersectEdgesOnEdge Fl.env [(fp ⟨155004, 463009⟩, fp ⟨155014, 463000⟩), (fp ⟨155004, 463003⟩, fp ⟨155002, 463008⟩)] 1 [0] =
      .ok (ii, jj, xy) ∧
    (∃ c, (0, 0, c) ∈ ii.zip (jj.zip xy)) ∧ (∃ c, (1, 0, c) ∈ ii.zip (jj.zip xy)) ∧ ∀ c, (1, 1, c) ∉ ii.zip (jj.zip xy) := by
  obtain ⟨t, h1, h2⟩ := bind_eq_ok.1 (show (EdgeCellTree.init Fl.env Ex.wholeNodes Ex.roofEdges 4 2 >>= fun t =>
    (.ok t.data.bbox : M _)) = .ok (fbox Ex.wholeNodesBox) by decide +kernel)
  have hv : ValidEdges Ex.wholeNodes.length Ex.roofEdges := by have := Ex.roof_valid; simpa [Ex.roofVerts, Ex.wholeNodes] using this
  have w : ∀ a b : Pt ℚ, WholePoly [a, b] → a ≠ b → (∀ v ∈ corners Ex.wholeNodesBox,
      2 ^ 26 / 2 ^ 46 * (|b.x - a.x| + |b.y - a.y|) < |orient a b v|) → QueryClear (2 ^ 26) Ex.wholeNodesBox a b :=
    fun a b h hne hcl => ⟨Ex.usual_of_whole (h.corner a (by simp)), Ex.usual_of_whole (h.corner b (by simp)), hne, avoids_of hcl⟩
  have w0 : WholePoly [(⟨155004, 463009⟩ : Pt ℚ), ⟨155014, 463000⟩] := Ex.wholePoly_iff (by decide +kernel) (by decide +kernel)
  have w1 : WholePoly [(⟨155004, 463003⟩ : Pt ℚ), ⟨155002, 463008⟩] := Ex.wholePoly_iff (by decide +kernel) (by decide +kernel)
  obtain ⟨ii, jj, xy, g1, _, _, _, _, g2⟩ := C123_crossings_exact (nThreads := 1) (sched := [0]) hv Ex.gable_tols
    (by decide +kernel) (by decide +kernel) (show Fl.env.floatMax ≠ nan from nofun) (show Fl.env.floatMin ≠ nan from nofun) h1
    Ex.wholeNodes_whole (by
      intro j a b h
      rcases Ex.wholeNodes_edges h with h | h <;> cases h <;> exact Ex.wholePoly_iff (by decide +kernel) (by decide +kernel))
    (by decide) (by decide) (Except.ok.inj h2) Ex.wholeNodesBox_usual
    (queries := [(fp ⟨155004, 463009⟩, fp ⟨155014, 463000⟩), (fp ⟨155004, 463003⟩, fp ⟨155002, 463008⟩)]) (by
      intro e he
      simp only [List.mem_cons, List.not_mem_nil, or_false] at he
      rcases he with rfl | rfl
      · exact ⟨_, _, rfl, w0, w _ _ w0 (by decide +kernel) (by decide +kernel)⟩
      · exact ⟨_, _, rfl, w1, w _ _ w1 (by decide +kernel) (by decide +kernel)⟩)
  have e0 : IsEdge Ex.wholeNodes Ex.roofEdges 0 (fp ⟨155000, 463000⟩) (fp ⟨155012, 463009⟩) := ⟨0, 1, rfl, rfl, rfl⟩
  have e1 : IsEdge Ex.wholeNodes Ex.roofEdges 1 (fp ⟨155012, 463009⟩) (fp ⟨155020, 463000⟩) := ⟨1, 2, rfl, rfl, rfl⟩
  refine ⟨t, ii, jj, xy, h1, g1, ?_, ?_, ?_⟩
  · exact (g2 0 0 _ _ _ _ rfl e0).2 (ProperCross.meet (by unfold ProperCross; decide +kernel))
      ⟨1 / 2, by norm_num, by norm_num, by unfold Deep; decide +kernel⟩
  · refine (g2 1 0 _ _ _ _ rfl e0).2 ⟨by decide +kernel, by decide +kernel, Or.inl ⟨?_, ?_⟩⟩
      ⟨1 / 2, by norm_num, by norm_num, by unfold Deep; decide +kernel⟩
    · unfold PassesBetween; decide +kernel
    · unfold PassesBetween; decide +kernel
  · intro c hc
    obtain ⟨⟨_, _, h | ⟨h, _⟩⟩, _⟩ := (g2 1 1 _ _ _ _ rfl e1).1 c hc
    · revert h; unfold PassesBetween; decide +kernel
    · revert h; decide +kernel

end Celltree.Fl
