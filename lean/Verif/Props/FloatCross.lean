import Verif.Proofs.FloatCross
import Verif.Props.FloatEdges
import Verif.Props.FloatPieces

/-!
# Crossings of edges in binary64: C91
-/

set_option linter.unusedSectionVars false

namespace Celltree

open Fl

variable {env : Env Fl} {vertices : List (Pt Fl)} {edges : IntArr} {t : CellTree Fl}

/-- What is computed for a query and an edge of the network. -/
theorem EdgeTreeOk.isect {bt : BT} {τ : Fl} (hc : EdgeTreeOk vertices edges t bt τ) (hv : ValidEdges vertices.length edges)
    {j : Nat} {p q : Pt Fl} (hj : IsEdge vertices edges j p q) {a b : Pt Fl} {f : Bool} {xy : Option (Pt Fl)}
    (hl : linesIntersect env a b p q = .ok (f, xy)) : edgeEdgeIntersect env t.data a b j = .ok (f, xy, xy) := by
  obtain ⟨v, w, h1, h2, h3⟩ := hj
  obtain ⟨v', w', hr, hv0, hv1, hw0, hw1⟩ := hv _ (List.mem_of_getElem? h1)
  simp only [List.cons.injEq, and_true] at hr
  obtain ⟨rfl, rfl⟩ := hr
  have hm : ([v, w] : List Int).mapM (fun i => rdI vertices i) = .ok [p, q] := by
    rw [mapM_rdI (by intro x hx; simp only [List.mem_cons, List.not_mem_nil, or_false] at hx; rcases hx with rfl | rfl <;> omega)]
    simp [h2, h3]
  unfold edgeEdgeIntersect
  rw [hc.elements_eq, rd_of_some h1, ok_bind, hc.vertices_eq, hm, ok_bind,
    rd_of_some (show ([p, q] : List (Pt Fl))[0]? = some p from rfl), ok_bind,
    rd_of_some (show ([p, q] : List (Pt Fl))[1]? = some q from rfl), ok_bind, hl, ok_bind]

/-- The search goes down to every edge of the network that the query meets. -/
theorem edgeBox_goes_down {τ : Fl} (hτ : (0 : Fl) ≤ τ) {a b p q : Pt ℚ} (ma : ModPt a) (mb : ModPt b) (hp : RepPt (fp p))
    (hq : RepPt (fp q)) {s s' : ℚ} (h0 : 0 ≤ s) (h1 : s ≤ 1) (h0' : 0 ≤ s') (h1' : s' ≤ 1)
    (he : lineAt a b s = lineAt p q s') (nd : Node Fl) :
    ((edgeBox τ (fp p) (fp q)).hi nd.dim ≤ nd.Lmax → false ∈ edgeSel (fp a) (fp b) nd) ∧
      (nd.Rmin ≤ (edgeBox τ (fp p) (fp q)).lo nd.dim → true ∈ edgeSel (fp a) (fp b) nd) := by
  set c : Box ℚ := ⟨min p.x q.x, max p.x q.x, min p.y q.y, max p.y q.y⟩ with hc
  have hin : InBox c (lineAt a b s) := by
    rw [he]
    obtain ⟨g1, g2⟩ := between_min_max p.x q.x s' h0' h1'
    obtain ⟨g3, g4⟩ := between_min_max p.y q.y s' h0' h1'
    exact ⟨g1, g2, g3, g4⟩
  obtain ⟨d1, d2⟩ := edge_goes_down_fl ma mb h0 h1 hin nd
  have hb : ∀ x y : ℚ, min p.x q.x ≤ x → x ≤ max p.x q.x → min p.y q.y ≤ y → y ≤ max p.y q.y →
      (edgeBox τ (fp p) (fp q)).Has (fp ⟨x, y⟩) := by
    intro x y x1 x2 y1 y2
    refine edgeBox_has hp hq hτ ?_
    unfold InBoxOf fp
    simp only [List.mem_cons, List.not_mem_nil, or_false, exists_eq_or_imp, exists_eq_left, le_fin]
    exact ⟨min_le_iff.1 x1, le_max_iff.1 x2, min_le_iff.1 y1, le_max_iff.1 y2⟩
  obtain ⟨l1, _, l3, _⟩ := hb _ _ le_rfl min_le_max le_rfl min_le_max
  obtain ⟨_, r2, _, r4⟩ := hb _ _ min_le_max le_rfl min_le_max le_rfl
  have hhi : (fbox c).hi nd.dim ≤ (edgeBox τ (fp p) (fp q)).hi nd.dim := by
    unfold Box.hi; cases nd.dim
    · exact r2
    · exact r4
  have hlo : (edgeBox τ (fp p) (fp q)).lo nd.dim ≤ (fbox c).lo nd.dim := by
    unfold Box.lo; cases nd.dim
    · exact l1
    · exact l3
  exact ⟨fun h => d1 (NumOrd.le_trans hhi h), fun h => d2 (NumOrd.le_trans h hlo)⟩

section
variable {nBuckets cellsPerLeaf : Int} {M m f : ℚ} {C : Box ℚ}

/-- **C91**: in binary64, for queries that stay away from the corners of the box of the network, `intersect_edges` of an edge
network returns normally. A pair is reported at most once, in the order of the queries. For a query and an edge of the network
that are in general position with respect to each other: if the pair is reported, the two properly cross, and the reported
location is the crossing, up to the given accuracy. If they cross and the query passes through the box of the network, and not
only along its border, the pair is reported. -/
theorem C91_crossings_accurate (hv : ValidEdges vertices.length edges) (hT : Tols env m f) (hmax : env.floatMax ≠ nan)
    (hmin : env.floatMin ≠ nan) (ht : EdgeCellTree.init env vertices edges nBuckets cellsPerLeaf = .ok t)
    (hM : 1 / 2 ^ 100 ≤ M) (hM' : M ≤ 2 ^ 199) (hu : ∀ v ∈ vertices, ∃ q, v = fp q ∧ UsualPt M q)
    (hC : t.data.bbox = fbox C) (hCu : UsualBox M C) {queries : List (Pt Fl × Pt Fl)}
    (hq : ∀ e ∈ queries, ∃ a b, e = (fp a, fp b) ∧ QueryClear M C a b) {nThreads : Nat}
    (hn : 0 < nThreads) {sched : List Nat} (hs : sched.Perm (List.range nThreads)) :
    ∃ ii jj xy, t.intersectEdgesOnEdge env queries nThreads sched = .ok (ii, jj, xy) ∧ ii.length = jj.length ∧
      jj.length = xy.length ∧ (ii.zip jj).Nodup ∧ ii.Pairwise (· ≤ ·) ∧
      (∀ i j c, (i, j, c) ∈ ii.zip (jj.zip xy) → i < queries.length ∧ j < edges.rows.length) ∧
      ∀ i j a b p q E ρ, queries[i]? = some (fp a, fp b) → IsEdge vertices edges j (fp p) (fp q) →
        CrossClear m f E ρ a b p q →
        (∀ c, (i, j, c) ∈ ii.zip (jj.zip xy) → ProperCross a b p q ∧
          ∃ x y, c = some (fp x) ∧ ShareAt a b p q y ∧ Within (crossAcc M E ρ) x y) ∧
        (ProperCross a b p q → (∃ s, 0 ≤ s ∧ s ≤ 1 ∧ Deep (M / 2 ^ 46) C (lineAt a b s)) →
          ∃ c, (i, j, c) ∈ ii.zip (jj.zip xy)) := by
  have hrep : ∀ v ∈ vertices, RepPt v := by
    intro v hv'
    obtain ⟨q, rfl, h1, h2⟩ := hu v hv'
    have big : ∀ x : ℚ, |x| ≤ M → |x| ≤ maxNat := fun x hx => hx.trans (hM'.trans (pow_le_big (by norm_num)))
    exact ⟨q, rfl, ⟨h1.1, big _ h1.2.1⟩, ⟨h2.1, big _ h2.2.1⟩⟩
  have ht0 : (0 : Fl) ≤ env.minTol := by
    rw [hT.min_eq, zero_def, le_fin]
    exact le_trans (by positivity) hT.m_ge
  obtain ⟨bt, τ, hτ, hc⟩ := edgeTree_fl hv hrep hmax hmin ht0 ht
  have inj : ∀ {a b : Pt ℚ}, fp a = fp b → a = b := by
    intro a b h
    unfold fp at h
    simp only [Pt.mk.injEq, Fl.fin.injEq] at h
    exact Pt.ext' h.1 h.2
  have hqc : ∀ (i : Nat) a b, queries[i]? = some (fp a, fp b) → QueryClear M C a b := by
    intro i a b h
    obtain ⟨a', b', e, h'⟩ := hq _ (List.mem_of_getElem? h)
    simp only [Prod.mk.injEq] at e
    rw [inj e.1, inj e.2]
    exact h'
  have husual : ∀ j p q, IsEdge vertices edges j (fp p) (fp q) → UsualPt M p ∧ UsualPt M q := by
    intro j p q hj
    obtain ⟨p', e, hp⟩ := hu _ hj.mem.1
    obtain ⟨q', e', hq⟩ := hu _ hj.mem.2
    rw [inj e, inj e']
    exact ⟨hp, hq⟩
  have htotal : ∀ e ∈ queries, EdgeTotal t.data (edgeEdgeIntersect env t.data) e.1 e.2 := by
    intro e he
    obtain ⟨a, b, rfl, h⟩ := hq e he
    refine ⟨?_, fun nd _ _ => edgeSides_fl nd _ _ _, ?_⟩
    · rw [hC]
      obtain ⟨r, h, _⟩ := cohenSutherland_fl hM hM' hCu h.first h.second h.corners h.ne
      exact ⟨r, h⟩
    · intro j hj
      rw [hc.length] at hj
      obtain ⟨p, q, hj⟩ := hv.isEdge hj
      obtain ⟨p, rfl, hp⟩ := hu _ hj.mem.1
      obtain ⟨q, rfl, hq⟩ := hu _ hj.mem.2
      obtain ⟨⟨f, xy⟩, hl⟩ := linesIntersect_total hT hM' h.first h.second hp hq
      exact ⟨_, hc.isect hv hj hl⟩
  obtain ⟨hnd, hsorted⟩ := edgeAll_nodup (isect := edgeEdgeIntersect env t.data) hc.tree queries
  have hloc := locateEdges_spec hc.tree queries (fun e he => (htotal e he).runs hc.tree) hn hs
  refine ⟨_, _, _, by unfold CellTree.intersectEdgesOnEdge; rw [hloc]; rfl, by simp, by simp, ?_, hsorted, ?_, ?_⟩
  · rw [List.zip_map']
    exact hnd
  · intro i j c hmem
    rw [List.map_map, List.zip_map', List.zip_map'] at hmem
    obtain ⟨⟨i', j', cd⟩, hx, he⟩ := List.mem_map.1 hmem
    simp only [Function.comp, Prod.mk.injEq] at he
    obtain ⟨rfl, rfl, rfl⟩ := he
    obtain ⟨_, hq', hh⟩ := mem_edgeAll.1 hx
    have := (edgeHits_sound hc.tree hh).1
    rw [hc.length] at this
    exact ⟨(List.getElem?_eq_some_iff.1 hq').1, this⟩
  · intro i j a b p q E ρ hi hj hcl
    rw [List.map_map, List.zip_map', List.zip_map']
    have h := hqc i a b hi
    obtain ⟨up, uq⟩ := husual j p q hj
    have ma := h.first.mod hM'
    have mb := h.second.mod hM'
    have mp := up.mod hM'
    have mq := uq.mod hM'
    have ba : Bnd M a := ⟨h.first.1.2.1, h.first.2.2.1⟩
    have bb : Bnd M b := ⟨h.second.1.2.1, h.second.2.2.1⟩
    constructor
    · intro c hmem
      obtain ⟨⟨i', j', cd⟩, hx, he⟩ := List.mem_map.1 hmem
      simp only [Function.comp, Prod.mk.injEq] at he
      obtain ⟨rfl, rfl, rfl⟩ := he
      obtain ⟨⟨a', b'⟩, hq', hh⟩ := mem_edgeAll.1 hx
      rw [hi] at hq'
      cases hq'
      obtain ⟨_, g2, _⟩ := edgeHits_sound hc.tree hh
      simp only at g2
      by_cases hp : ProperCross a b p q
      · refine ⟨hp, ?_⟩
        obtain ⟨x, x1, x2⟩ := hcl.crossing hT hM hM' ma mb mp mq ba bb hp
        rw [hc.isect hv hj x1] at g2
        cases g2
        exact ⟨x, _, rfl, straddles_share hp.straddles, x2⟩
      · rw [hc.isect hv hj (hcl.nothing hT ma mb mp mq hp)] at g2
        cases g2
    · rintro hp ⟨s, s0, s1, hd⟩
      obtain ⟨x, x1, x2⟩ := hcl.crossing hT hM hM' ma mb mp mq ba bb hp
      refine ⟨some (fp x), List.mem_map.2 ⟨(i, j, some (fp x), some (fp x)), mem_edgeAll.2 ⟨_, hi, ?_⟩, rfl⟩⟩
      obtain ⟨u, v, u0, u1, v0, v1, e1, e2⟩ := straddles_share hp.straddles
      refine edgeHits_complete hc.tree (hc.boxes j _ _ hj) (hc.isect hv hj x1) ?_ ?_ ?_
      · obtain ⟨r, g1, g2, _⟩ := cohenSutherland_fl hM hM' hCu h.first h.second h.corners h.ne
        have : r ≠ none := by
          refine g2 (lineAt a b s) ?_ ⟨s, s0, s1, within_self le_rfl _⟩
          rw [cutErr_eq hM hM' hCu h.first h.second h.corners]
          exact hd
        obtain ⟨x, hx⟩ := Option.ne_none_iff_exists'.1 this
        exact ⟨x, by rw [hC, ← hx]; exact g1⟩
      · intro nd _
        exact (edgeBox_goes_down hτ ma mb (hrep _ hj.mem.1) (hrep _ hj.mem.2) u0 u1 v0 v1 (e1.symm.trans e2) nd).1
      · intro nd _
        exact (edgeBox_goes_down hτ ma mb (hrep _ hj.mem.1) (hrep _ hj.mem.2) u0 u1 v0 v1 (e1.symm.trans e2) nd).2

end

/-! ## The hypotheses can be met -/

namespace Ex

/-- A network of two edges. -/
def gableVerts : List (Pt Fl) := [fp ⟨0, 0⟩, fp ⟨10, 10⟩, fp ⟨20, 0⟩]
def gableEdges : IntArr := ⟨2, [[0, 1], [1, 2]]⟩

/-- The box of the network. -/
def gableBox : Box ℚ := ⟨-6189700196426901 / 2 ^ 88, 5629499534218749 / 2 ^ 48, -6189700196426901 / 2 ^ 88,
  5629499534224379 / 2 ^ 49⟩

/-- A query that crosses both edges, and one that crosses none. -/
def beamA : Pt ℚ := ⟨2, 8⟩
def beamB : Pt ℚ := ⟨17, 6⟩
def smokeA : Pt ℚ := ⟨1, 7⟩
def smokeB : Pt ℚ := ⟨8, 20⟩

def gableMin : ℚ := 2535301200456459 / 2535301200456458802993406410752
def gableFactor : ℚ := 4951760157141521 / 4951760157141521099596496896

theorem gable_valid : ValidEdges gableVerts.length gableEdges := by
  intro r hr
  simp only [gableEdges, List.mem_cons, List.not_mem_nil, or_false] at hr
  rcases hr with rfl | rfl
  · exact ⟨0, 1, rfl, by decide, by decide, by decide, by decide⟩
  · exact ⟨1, 2, rfl, by decide, by decide, by decide, by decide⟩

theorem gable_tols : Tols Fl.env gableMin gableFactor :=
  ⟨by decide +kernel, by decide +kernel, by decide +kernel, by decide +kernel, by decide +kernel, by decide +kernel⟩

theorem usual_32 (n : Int) (h : |n| ≤ 32) : Usual 32 (n : ℚ) :=
  usual_int (lt_of_le_of_lt h (by norm_num)) (by exact_mod_cast h)

theorem gable_usual : ∀ v ∈ gableVerts, ∃ q, v = fp q ∧ UsualPt 32 q := by
  have h0 := usual_32 0 (by norm_num)
  have h10 := usual_32 10 (by norm_num)
  have h20 := usual_32 20 (by norm_num)
  push_cast at h0 h10 h20
  intro v hv
  simp only [gableVerts, List.mem_cons, List.not_mem_nil, or_false] at hv
  rcases hv with rfl | rfl | rfl
  · exact ⟨_, rfl, h0, h0⟩
  · exact ⟨_, rfl, h10, h10⟩
  · exact ⟨_, rfl, h20, h0⟩

theorem gable_box_usual : UsualBox 32 gableBox := by
  have h1 : Usual 32 (-6189700196426901 / 2 ^ 88) :=
    ⟨⟨-6189700196426901, -88, by norm_num, by norm_num, by norm_num⟩, by decide +kernel, Or.inr (by decide +kernel)⟩
  have h2 : Usual 32 (5629499534218749 / 2 ^ 48) :=
    ⟨⟨5629499534218749, -48, by norm_num, by norm_num, by norm_num⟩, by decide +kernel, Or.inr (by decide +kernel)⟩
  have h3 : Usual 32 (5629499534224379 / 2 ^ 49) :=
    ⟨⟨5629499534224379, -49, by norm_num, by norm_num, by norm_num⟩, by decide +kernel, Or.inr (by decide +kernel)⟩
  exact ⟨h1, h2, h1, h3, by decide +kernel, by decide +kernel⟩

theorem beam_clear : QueryClear 32 gableBox beamA beamB := by
  have h1 := usual_32 2 (by norm_num)
  have h2 := usual_32 8 (by norm_num)
  have h3 := usual_32 17 (by norm_num)
  have h4 := usual_32 6 (by norm_num)
  push_cast at h1 h2 h3 h4
  exact ⟨⟨h1, h2⟩, ⟨h3, h4⟩, by decide, avoids_of (by decide +kernel)⟩

theorem smoke_clear : QueryClear 32 gableBox smokeA smokeB := by
  have h1 := usual_32 1 (by norm_num)
  have h2 := usual_32 7 (by norm_num)
  have h3 := usual_32 8 (by norm_num)
  have h4 := usual_32 20 (by norm_num)
  push_cast at h1 h2 h3 h4
  exact ⟨⟨h1, h2⟩, ⟨h3, h4⟩, by decide, avoids_of (by decide +kernel)⟩

theorem crossClear_of {m f E ρ : ℚ} {a b p q : Pt ℚ}
    (h : (∀ v ∈ [b, p, q], |v.x - a.x| ≤ E ∧ |v.y - a.y| ≤ E) ∧ (1 / 2 ^ 43 ≤ ρ ∧ ρ ≤ 1) ∧ (4 * m ≤ ρ * E ∧ 9 * f ≤ ρ) ∧
      ρ * E ^ 2 ≤ |orient a b p| ∧ ρ * E ^ 2 ≤ |orient a b q| ∧ ρ * E ^ 2 ≤ |orient p q a| ∧ ρ * E ^ 2 ≤ |orient p q b|) :
    CrossClear m f E ρ a b p q := ⟨h.1, h.2.1, h.2.2.1, h.2.2.2.1, h.2.2.2.2.1, h.2.2.2.2.2.1, h.2.2.2.2.2.2⟩

end Ex

set_option synthInstance.maxSize 400 in
set_option synthInstance.maxHeartbeats 200000 in
/-- The two queries meet the conditions of C91. The first crosses both edges of the network, the second crosses none. -/
theorem Fl.C91_example : ∃ t : CellTree Fl, EdgeCellTree.init Fl.env Ex.gableVerts Ex.gableEdges 4 2 = .ok t ∧
    t.data.bbox = fbox Ex.gableBox ∧ UsualBox 32 Ex.gableBox ∧
    QueryClear 32 Ex.gableBox Ex.beamA Ex.beamB ∧ QueryClear 32 Ex.gableBox Ex.smokeA Ex.smokeB ∧
    CrossClear Ex.gableMin Ex.gableFactor 20 (1 / 16) Ex.beamA Ex.beamB ⟨0, 0⟩ ⟨10, 10⟩ ∧
    CrossClear Ex.gableMin Ex.gableFactor 20 (1 / 16) Ex.smokeA Ex.smokeB ⟨0, 0⟩ ⟨10, 10⟩ ∧
    ProperCross Ex.beamA Ex.beamB ⟨0, 0⟩ ⟨10, 10⟩ ∧ ¬ ProperCross Ex.smokeA Ex.smokeB ⟨0, 0⟩ ⟨10, 10⟩ ∧
    Deep (32 / 2 ^ 46) Ex.gableBox (lineAt Ex.beamA Ex.beamB 0) ∧
    t.intersectEdgesOnEdge Fl.env [(fp Ex.beamA, fp Ex.beamB), (fp Ex.smokeA, fp Ex.smokeB)] 1 [0] = .ok ([0, 0], [0, 1],
      [some (fp ⟨4106223189661335 / 2 ^ 49, 8212446379322669 / 2 ^ 50⟩),
       some (fp ⟨7621476292473147 / 2 ^ 49, 3637522775953093 / 2 ^ 49⟩)]) := by
  obtain ⟨t, h1, h2⟩ := bind_eq_ok.1 (show (EdgeCellTree.init Fl.env Ex.gableVerts Ex.gableEdges 4 2 >>= fun t =>
    (.ok (t.data.bbox, t.intersectEdgesOnEdge Fl.env [(fp Ex.beamA, fp Ex.beamB), (fp Ex.smokeA, fp Ex.smokeB)] 1 [0]) :
      M (Box Fl × M (List Nat × List Nat × List (Option (Pt Fl)))))) =
    .ok (fbox Ex.gableBox, .ok ([0, 0], [0, 1],
      [some (fp ⟨4106223189661335 / 2 ^ 49, 8212446379322669 / 2 ^ 50⟩),
       some (fp ⟨7621476292473147 / 2 ^ 49, 3637522775953093 / 2 ^ 49⟩)])) by decide +kernel)
  have h2 := Except.ok.inj h2
  exact ⟨t, h1, congrArg Prod.fst h2, Ex.gable_box_usual, Ex.beam_clear, Ex.smoke_clear, Ex.crossClear_of (by decide +kernel),
    Ex.crossClear_of (by decide +kernel), by unfold ProperCross; decide +kernel, by unfold ProperCross; decide +kernel,
    by unfold Deep; decide +kernel, congrArg Prod.snd h2⟩

/-- So C91 applies to them. -/
example : ∃ (t : CellTree Fl) (ii jj : List Nat) (xy : List (Option (Pt Fl))) (x y : Pt ℚ),
    EdgeCellTree.init Fl.env Ex.gableVerts Ex.gableEdges 4 2 = .ok t ∧
    t.intersectEdgesOnEdge Fl.env [(fp Ex.beamA, fp Ex.beamB), (fp Ex.smokeA, fp Ex.smokeB)] 1 [0] = .ok (ii, jj, xy) ∧
    (0, 0, some (fp x)) ∈ ii.zip (jj.zip xy) ∧ ShareAt Ex.beamA Ex.beamB ⟨0, 0⟩ ⟨10, 10⟩ y ∧
    Within (crossAcc 32 20 (1 / 16)) x y ∧ ∀ c, (1, 0, c) ∉ ii.zip (jj.zip xy) := by
  obtain ⟨t, h1, h2, h3, h4, h5, h6, h7, h8, h9, h10, _⟩ := Fl.C91_example
  obtain ⟨ii, jj, xy, g1, _, _, _, _, _, g2⟩ := C91_crossings_accurate (M := 32) Ex.gable_valid Ex.gable_tols (by decide) (by decide)
    h1 (by norm_num) (by norm_num) Ex.gable_usual h2 h3
    (queries := [(fp Ex.beamA, fp Ex.beamB), (fp Ex.smokeA, fp Ex.smokeB)])
    (by
      intro e he
      simp only [List.mem_cons, List.not_mem_nil, or_false] at he
      rcases he with rfl | rfl
      · exact ⟨_, _, rfl, h4⟩
      · exact ⟨_, _, rfl, h5⟩) (nThreads := 1) (by decide) (sched := [0]) (by decide)
  have hj : IsEdge Ex.gableVerts Ex.gableEdges 0 (fp ⟨0, 0⟩) (fp ⟨10, 10⟩) := ⟨0, 1, rfl, rfl, rfl⟩
  obtain ⟨k1, k2⟩ := g2 0 0 _ _ _ _ _ _ rfl hj h6
  obtain ⟨c, hc⟩ := k2 h8 ⟨0, le_rfl, zero_le_one, h10⟩
  obtain ⟨_, x, y, rfl, e1, e2⟩ := k1 c hc
  exact ⟨t, ii, jj, xy, x, y, h1, g1, hc, e1, e2, fun c hc => h9 ((g2 1 0 _ _ _ _ _ _ rfl hj h7).1 c hc).1⟩

end Celltree
