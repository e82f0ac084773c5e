import Verif.Proofs.FloatPiece
import Verif.Proofs.FloatSides
import Verif.Props.FloatWachspress

/-!
# Edges in general position, in binary64: C90
-/

set_option linter.unusedSectionVars false

namespace Celltree

open Fl

namespace Fl

/-- An edge that runs through the middle of a square in the set has a piece in the set. -/
theorem piece_long {d R w : ℚ} {l : List (Pt ℚ)} {a b : Pt ℚ} (hd : d < R) (hR : 0 ≤ R) (h0 : 0 ≤ w) (h1 : w ≤ 1)
    (hsq : SquareIn l (lineAt a b w) R) : ¬ PieceAcc d (InPoly l) a b none := by
  rintro ⟨hn, hall⟩
  have hw : InPoly l (lineAt a b w) := hsq _ (by simpa using hR) (by simpa using hR)
  have key : ∀ σ, 0 ≤ σ → σ ≤ 1 → ¬ InPoly l (lineAt a b σ) → False := by
    intro σ s0 s1 hσ
    set m := max |(lineAt a b σ).x - (lineAt a b w).x| |(lineAt a b σ).y - (lineAt a b w).y| with hm
    have hmx : |(lineAt a b σ).x - (lineAt a b w).x| ≤ m := le_max_left _ _
    have hmy : |(lineAt a b σ).y - (lineAt a b w).y| ≤ m := le_max_right _ _
    have hRm : R < m := by
      by_contra h
      push Not at h
      exact hσ (hsq _ (hmx.trans h) (hmy.trans h))
    have hm0 : 0 < m := lt_of_le_of_lt hR hRm
    have l0 : 0 ≤ R / m := div_nonneg hR hm0.le
    have l1 : R / m ≤ 1 := (div_le_one hm0).2 hRm.le
    have e : ∀ x y : ℚ, x + (w + R / m * (σ - w)) * (y - x) - (x + w * (y - x)) =
        R / m * (x + σ * (y - x) - (x + w * (y - x))) := by intro x y; ring
    have ex : (lineAt a b (w + R / m * (σ - w))).x - (lineAt a b w).x =
        R / m * ((lineAt a b σ).x - (lineAt a b w).x) := e _ _
    have ey : (lineAt a b (w + R / m * (σ - w))).y - (lineAt a b w).y =
        R / m * ((lineAt a b σ).y - (lineAt a b w).y) := e _ _
    have hRR : R / m * m = R := div_mul_cancel₀ _ hm0.ne'
    have t0 : 0 ≤ w + R / m * (σ - w) := by nlinarith
    have t1 : w + R / m * (σ - w) ≤ 1 := by nlinarith
    have hin : InPoly l (lineAt a b (w + R / m * (σ - w))) := by
      apply hsq
      · rw [ex, abs_mul, abs_of_nonneg l0]
        exact (mul_le_mul_of_nonneg_left hmx l0).trans hRR.le
      · rw [ey, abs_mul, abs_of_nonneg l0]
        exact (mul_le_mul_of_nonneg_left hmy l0).trans hRR.le
    obtain ⟨g1, g2⟩ := hall _ _ t0 t1 h0 h1 hin hw
    rw [ex, abs_mul, abs_of_nonneg l0] at g1
    rw [ey, abs_mul, abs_of_nonneg l0] at g2
    have : R / m * m ≤ d := by
      rcases max_choice |(lineAt a b σ).x - (lineAt a b w).x| |(lineAt a b σ).y - (lineAt a b w).y| with h | h
      · rw [← hm] at h; rw [← h] at g1; exact g1
      · rw [← hm] at h; rw [← h] at g2; exact g2
    linarith
  by_cases ha : InPoly l a
  · exact key 1 (by norm_num) le_rfl (by rw [lineAt_one]; exact fun hb => hn ⟨ha, hb⟩)
  · exact key 0 le_rfl (by norm_num) (by rw [lineAt_zero]; exact ha)

/-- There is only one bounding box. -/
theorem fbox_unique {l : List (Pt Fl)} {c c' : Box ℚ} (h : IsBBox l (fbox c)) (h' : IsBBox l (fbox c')) : c = c' := by
  have key : ∀ c c' : Box ℚ, IsBBox l (fbox c) → IsBBox l (fbox c') →
      c'.xmin ≤ c.xmin ∧ c.xmax ≤ c'.xmax ∧ c'.ymin ≤ c.ymin ∧ c.ymax ≤ c'.ymax := by
    intro c c' h h'
    obtain ⟨p1, m1, e1⟩ := h.left
    obtain ⟨p2, m2, e2⟩ := h.right
    obtain ⟨p3, m3, e3⟩ := h.bottom
    obtain ⟨p4, m4, e4⟩ := h.top
    have g1 := (h'.contains p1 m1).1
    have g2 := (h'.contains p2 m2).2.1
    have g3 := (h'.contains p3 m3).2.2.1
    have g4 := (h'.contains p4 m4).2.2.2
    rw [e1] at g1
    rw [e2] at g2
    rw [e3] at g3
    rw [e4] at g4
    exact ⟨(le_fin _ _).1 g1, (le_fin _ _).1 g2, (le_fin _ _).1 g3, (le_fin _ _).1 g4⟩
  obtain ⟨a1, a2, a3, a4⟩ := key c c' h h'
  obtain ⟨b1, b2, b3, b4⟩ := key c' c h' h
  cases c; cases c'
  simp only at *
  rw [le_antisymm b1 a1, le_antisymm a2 b2, le_antisymm b3 a3, le_antisymm a4 b4]

end Fl

section
variable {env : Env Fl} {vertices : List (Pt Fl)} {faces : IntArr} {fill nBuckets cellsPerLeaf : Int} {t : CellTree Fl}
  {M : ℚ}

/-- **C90**: in binary64, for edges in general position, `intersect_edges` returns normally. A pair is reported at most once, in
the order of the edges, and only if the edge comes close to the bounding box of the face. The ends of a reported piece are those
of the exact piece of the edge in the face, up to the given accuracy. An edge that passes through the middle of a square in the
face, of about the size of that accuracy, is reported. -/
theorem C90_intersect_edges_accurate (hm : GoodMesh env vertices faces fill)
    (ht : Makes env vertices faces fill nBuckets cellsPerLeaf t) (hM : 1 / 2 ^ 100 ≤ M) (hM' : M ≤ 2 ^ 199)
    (hv : ∀ v ∈ vertices, ∃ q, v = fp q ∧ UsualPt M q) {edges : List (Pt Fl × Pt Fl)}
    (he : ∀ e ∈ edges, ∃ a b, e = (fp a, fp b) ∧ EdgeClear env M vertices faces fill a b) {nThreads : Nat}
    (hn : 0 < nThreads) {sched : List Nat} (hs : sched.Perm (List.range nThreads)) :
    ∃ ii jj xy, t.intersectEdges env edges nThreads sched = .ok (ii, jj, xy) ∧ ii.length = jj.length ∧
      jj.length = xy.length ∧ (ii.zip jj).Nodup ∧ ii.Pairwise (· ≤ ·) ∧
      (∀ i j cd, (i, j, cd) ∈ ii.zip (jj.zip xy) → ∃ a b r c, edges[i]? = some (fp a, fp b) ∧ faces.rows[j]? = some r ∧
        IsBBox (facePts vertices fill r) (fbox c) ∧ ∃ s, 0 ≤ s ∧ s ≤ 1 ∧ NearBox (M / 2 ^ 47) c (lineAt a b s)) ∧
      ∀ i j a b r c D E ρ tol l, edges[i]? = some (fp a, fp b) → faces.rows[j]? = some r →
        FaceClear env M D E ρ tol (facePts vertices fill r) c l a b →
        (∀ cd, (i, j, cd) ∈ ii.zip (jj.zip xy) →
          ∃ p q, cd = (some p, some q) ∧ PieceAcc (acc M E ρ) (InPoly l) a b (some (p, q))) ∧
        ∀ w, 0 ≤ w → w ≤ 1 → SquareIn l (lineAt a b w) (acc M E ρ + M / 2 ^ 46) → ∃ cd, (i, j, cd) ∈ ii.zip (jj.zip xy) := by
  obtain ⟨hcol, _, bt, hc⟩ := ht.constructed' hm
  obtain ⟨hnd, hsorted⟩ := edgeAll_nodup (isect := edgeFaceIntersect env t.data) hc.tree edges
  have hM0 : 0 < M := lt_of_lt_of_le (by positivity) hM
  have inj : ∀ {a b : Pt ℚ}, fp a = fp b → a = b := by
    intro a b h
    unfold fp at h
    simp only [Pt.mk.injEq, Fl.fin.injEq] at h
    exact Pt.ext' h.1 h.2
  have hec : ∀ (i : Nat) a b, edges[i]? = some (fp a, fp b) → EdgeClear env M vertices faces fill a b := by
    intro i a b h
    obtain ⟨a', b', e, h'⟩ := he _ (List.mem_of_getElem? h)
    simp only [Prod.mk.injEq] at e
    rw [inj e.1, inj e.2]
    exact h'
  have hmem : ∀ i j cd, (i, j, cd) ∈ ((edgeAll t.data bt (edgeFaceIntersect env t.data) edges).map Prod.fst).zip
      (((edgeAll t.data bt (edgeFaceIntersect env t.data) edges).map fun r => r.2.1).zip
        ((edgeAll t.data bt (edgeFaceIntersect env t.data) edges).map fun r => r.2.2)) ↔
      ∃ q, edges[i]? = some q ∧ (j, cd) ∈ edgeHits t.data bt (edgeFaceIntersect env t.data) q := by
    intro i j cd
    rw [List.zip_map', List.zip_map', ← mem_edgeAll]
    constructor
    · intro h
      obtain ⟨⟨i', j', cd'⟩, hx, e⟩ := List.mem_map.1 h
      cases e
      exact hx
    · intro h
      exact List.mem_map.2 ⟨_, h, rfl⟩
  refine ⟨_, _, _, locateEdges_spec hc.tree edges (fun e h => ?_) hn hs, by simp, by simp, ?_, hsorted, ?_, ?_⟩
  · obtain ⟨a, b, rfl, h1⟩ := he e h
    exact (edgeTotal_fl hc hcol hM hM' hv h1).runs hc.tree
  · rw [List.zip_map']
    exact hnd
  · intro i j cd h
    obtain ⟨q, hq, hh⟩ := (hmem i j cd).1 h
    obtain ⟨a, b, rfl, h1⟩ := he q (List.mem_of_getElem? hq)
    obtain ⟨g1, g2, _⟩ := edgeHits_sound hc.tree hh
    simp only at g1 g2
    have hj : j < faces.rows.length := by rw [← hc.boxes.length]; exact g1
    obtain ⟨c, res, e1, _, e3, e4, e5, _⟩ := edgeFaceIntersect_fl hc hcol hM hM' hv h1 (List.getElem?_eq_getElem hj)
    rw [g2] at e4
    cases e4
    exact ⟨a, b, _, c, hq, List.getElem?_eq_getElem hj, e3, e5 rfl⟩
  · intro i j a b r c D E ρ tol l hi hj hf
    have h1 := hec i a b hi
    obtain ⟨c', res, e1, e2, e3, e4, e5, e6⟩ := edgeFaceIntersect_fl hc hcol hM hM' hv h1 hj
    have hcc : c' = c := fbox_unique e3 hf.box
    subst hcc
    obtain ⟨f1, f2⟩ := e6 D E ρ tol l hf
    constructor
    · intro cd h
      obtain ⟨q, hq, hh⟩ := (hmem i j cd).1 h
      rw [hi] at hq
      cases hq
      obtain ⟨_, g2, _⟩ := edgeHits_sound hc.tree hh
      simp only at g2
      rw [g2] at e4
      cases e4
      exact f1 cd rfl
    · intro w w0 w1 hsq
      have ma := h1.first.mod hM'
      have mb := h1.second.mod hM'
      have hacc : 0 < acc M E ρ := by
        rw [hf.pos.acc_eq hM hM' ma mb hf.tol_nonneg]
        have := hf.pos.theta_pos hM hM' ma mb hf.tol_nonneg
        have := hf.pos.E_pos hM hM' ma mb
        positivity
      have hR : 0 < M / 2 ^ 46 := by positivity
      -- the point is deep in the box of the face
      have hbl : IsBBox l c' := by
        rcases hf.corners with g | g
        · rw [g] at e3; exact bbox_of_map e3
        · rw [g] at e3
          exact (bbox_of_map e3).of_mem fun q => by simp
      have sq : ∀ dx dy : ℚ, |dx| ≤ M / 2 ^ 46 → |dy| ≤ M / 2 ^ 46 →
          InBox c' ⟨(lineAt a b w).x + dx, (lineAt a b w).y + dy⟩ := by
        intro dx dy hx hy
        refine InPoly.inBox hf.pos.convex hbl (hsq _ ?_ ?_)
        · simp only [add_sub_cancel_left]; linarith
        · simp only [add_sub_cancel_left]; linarith
      have habs : |M / 2 ^ 46| ≤ M / 2 ^ 46 := by rw [abs_of_pos hR]
      have habs' : |-(M / 2 ^ 46)| ≤ M / 2 ^ 46 := by rw [abs_neg]; exact habs
      have hdeep : Deep (M / 2 ^ 46) c' (lineAt a b w) := by
        obtain ⟨_, q1, _, q2⟩ := sq _ _ habs habs
        obtain ⟨q3, _, q4, _⟩ := sq _ _ habs' habs'
        simp only at q1 q2 q3 q4
        refine ⟨by linarith, by linarith, by linarith, by linarith⟩
      have hon : OnNear 0 a b (lineAt a b w) := ⟨w, w0, w1, within_self le_rfl _⟩
      -- so the test is positive
      have hres : ∃ cd, res = (true, cd) := by
        obtain ⟨ok, cd⟩ := res
        cases ok
        · exact absurd (f2 rfl ⟨_, hdeep, hon⟩) (piece_long (by linarith) (by linarith) w0 w1 hsq)
        · exact ⟨cd, rfl⟩
      obtain ⟨cd, rfl⟩ := hres
      refine ⟨cd, (hmem i j cd).2 ⟨_, hi, ?_⟩⟩
      have hin : InBox c' (lineAt a b w) := by
        obtain ⟨d1, d2, d3, d4⟩ := hdeep
        exact ⟨by linarith, by linarith, by linarith, by linarith⟩
      refine edgeHits_complete hc.tree e1 e4 ?_ ?_ ?_
      · have hB := treeBox_bbox hc (fun r _ v hv' => by
          obtain ⟨q, h, _⟩ := hv v (facePts_mem hv')
          exact ⟨q, h⟩)
        obtain ⟨C, e, hU⟩ := usualBox_of (M := M) (fun v hv' => by
          obtain ⟨r, _, h⟩ := List.mem_flatMap.1 hv'
          exact hv v (facePts_mem h)) hB
        obtain ⟨b1, b2, b3, b4⟩ := hc.bbox.contains _ (List.mem_of_getElem? e1)
        rw [e] at hB b1 b2 b3 b4 ⊢
        obtain ⟨s, g1, g2, _⟩ := cut_box hc hcol hM hM' hv h1 C hU (h1.whole C hB)
        have : s ≠ none := by
          refine g2 (lineAt a b w) ?_ hon
          have b1 : C.xmin ≤ c'.xmin := (le_fin _ _).1 b1
          have b2 : c'.xmax ≤ C.xmax := (le_fin _ _).1 b2
          have b3 : C.ymin ≤ c'.ymin := (le_fin _ _).1 b3
          have b4 : c'.ymax ≤ C.ymax := (le_fin _ _).1 b4
          obtain ⟨d1, d2, d3, d4⟩ := hdeep
          exact ⟨by linarith, by linarith, by linarith, by linarith⟩
        obtain ⟨x, hx⟩ := Option.ne_none_iff_exists'.1 this
        exact ⟨x, by rw [← hx]; exact g1⟩
      · intro nd _
        exact (edge_goes_down_fl ma mb w0 w1 hin nd).1
      · intro nd _
        exact (edge_goes_down_fl ma mb w0 w1 hin nd).2

end

/-! ## The hypotheses can be met -/

namespace Fl

theorem usual_int {n : Int} {M : ℚ} (h : |n| < 2 ^ 53) (hM : |(n : ℚ)| ≤ M) : Usual M n := by
  refine ⟨⟨n, 0, by simp, h, by norm_num⟩, hM, ?_⟩
  by_cases h0 : n = 0
  · left; exact_mod_cast h0
  · right
    have : 1 ≤ |n| := Int.one_le_abs h0
    have h1 : (1 : ℚ) ≤ |(n : ℚ)| := by exact_mod_cast this
    refine le_trans ?_ h1
    rw [div_le_one (by positivity)]
    exact one_le_pow₀ (by norm_num)

/-- A point that is clearly off a line is not close to a segment of it. -/
theorem not_onNear {d : ℚ} {a b p : Pt ℚ} (h : d * (|b.x - a.x| + |b.y - a.y|) < |orient a b p|) : ¬ OnNear d a b p := by
  rintro ⟨t, _, _, h1, h2⟩
  have e : orient a b p = (b.x - a.x) * (p.y - (lineAt a b t).y) - (b.y - a.y) * (p.x - (lineAt a b t).x) := by
    unfold orient lineAt; ring
  have : |orient a b p| ≤ d * (|b.x - a.x| + |b.y - a.y|) := by
    rw [e]
    refine (abs_sub _ _).trans ?_
    rw [abs_mul, abs_mul]
    have g1 := mul_le_mul_of_nonneg_left h2 (abs_nonneg (b.x - a.x))
    have g2 := mul_le_mul_of_nonneg_left h1 (abs_nonneg (b.y - a.y))
    linarith
  linarith

theorem avoids_of {M : ℚ} {c : Box ℚ} {a b : Pt ℚ}
    (h : ∀ v ∈ corners c, M / 2 ^ 46 * (|b.x - a.x| + |b.y - a.y|) < |orient a b v|) : AvoidsCorners M c a b :=
  fun v hv => not_onNear (h v hv)

theorem genPos_of {M D E ρ tol : ℚ} {l : List (Pt ℚ)} {a b : Pt ℚ}
    (h : ConvexPoly l ∧ GoodPoly M D l ∧ (∀ v ∈ l, |v.x - a.x| ≤ E ∧ |v.y - a.y| ≤ E) ∧
      (|b.x - a.x| ≤ E ∧ |b.y - a.y| ≤ E) ∧ 1 / 2 ^ 200 ≤ E ∧ (1 / 2 ^ 43 ≤ ρ ∧ ρ ≤ 1) ∧
      (∀ v ∈ l, ρ * E ^ 2 ≤ |orient a b v|) ∧
      (∀ s ∈ sides l, (2 * max tol (slack M D) + acc M E ρ) * (|s.2.x - s.1.x| + |s.2.y - s.1.y|) < |orient s.1 s.2 a|) ∧
      (∀ s ∈ sides l, (2 * max tol (slack M D) + acc M E ρ) * (|s.2.x - s.1.x| + |s.2.y - s.1.y|) < |orient s.1 s.2 b|)) :
    GenPos M D E ρ tol l a b := by
  obtain ⟨h1, h2, h3, h4, h5, h6, h7, h8, h9⟩ := h
  exact ⟨h1, h2, h3, h4, h5, h6, h7, fun s hs => not_onNear (h8 s hs), fun s hs => not_onNear (h9 s hs)⟩

end Fl

instance {F : Type} [LE F] [DecidableLE F] [DecidableEq F] (l : List (Pt F)) (c : Box F) : Decidable (IsBBox l c) :=
  decidable_of_iff ((∀ p ∈ l, c.xmin ≤ p.x ∧ p.x ≤ c.xmax ∧ c.ymin ≤ p.y ∧ p.y ≤ c.ymax) ∧ (∃ p ∈ l, p.x = c.xmin) ∧
      (∃ p ∈ l, p.x = c.xmax) ∧ (∃ p ∈ l, p.y = c.ymin) ∧ ∃ p ∈ l, p.y = c.ymax)
    ⟨fun ⟨h1, h2, h3, h4, h5⟩ => ⟨h1, h2, h3, h4, h5⟩, fun h => ⟨h.contains, h.left, h.right, h.bottom, h.top⟩⟩

namespace Ex

/-- An edge that crosses the square and ends in the triangle. -/
def houseA : Pt ℚ := ⟨-5, 3⟩
def houseB : Pt ℚ := ⟨16, 6⟩

theorem house_usual : ∀ v ∈ houseVerts, ∃ q, v = fp q ∧ UsualPt 20 q := by
  have h : ∀ n : Int, |n| ≤ 20 → Usual 20 (n : ℚ) := by
    intro n hn
    refine usual_int (lt_of_le_of_lt hn (by norm_num)) ?_
    exact_mod_cast hn
  have h0 := h 0 (by norm_num)
  have h5 := h 5 (by norm_num)
  have h10 := h 10 (by norm_num)
  have h20 := h 20 (by norm_num)
  push_cast at h0 h5 h10 h20
  intro v hv
  simp only [houseVerts, List.mem_cons, List.not_mem_nil, or_false] at hv
  rcases hv with rfl | rfl | rfl | rfl | rfl
  · exact ⟨_, rfl, h0, h0⟩
  · exact ⟨_, rfl, h10, h0⟩
  · exact ⟨_, rfl, h10, h10⟩
  · exact ⟨_, rfl, h0, h10⟩
  · exact ⟨_, rfl, h20, h5⟩

def houseTol : ℚ := 6189700196426901 / 2 ^ 89
def houseSquare : List (Pt ℚ) := [⟨0, 0⟩, ⟨10, 0⟩, ⟨10, 10⟩, ⟨0, 10⟩]
def houseTriangle : List (Pt ℚ) := [⟨20, 5⟩, ⟨10, 10⟩, ⟨10, 0⟩]

theorem house_square_clear : FaceClear Fl.env 20 10 25 (1 / 32) houseTol (facePts houseVerts (-1) [0, 1, 2, 3]) ⟨0, 10, 0, 10⟩
    houseSquare houseA houseB :=
  ⟨by decide +kernel, Or.inl (by decide +kernel), by decide +kernel, by decide +kernel, by decide +kernel,
    genPos_of (by decide +kernel)⟩

theorem house_triangle_clear : FaceClear Fl.env 20 10 25 (1 / 32) houseTol (facePts houseVerts (-1) [1, 2, 4, -1])
    ⟨10, 20, 0, 10⟩ houseTriangle houseA houseB :=
  ⟨by decide +kernel, Or.inr (by decide +kernel), by decide +kernel, by decide +kernel, by decide +kernel,
    genPos_of (by decide +kernel)⟩

theorem house_clear : EdgeClear Fl.env 20 houseVerts houseFaces (-1) houseA houseB := by
  have h : ∀ n : Int, |n| ≤ 20 → Usual 20 (n : ℚ) := by
    intro n hn
    refine usual_int (lt_of_le_of_lt hn (by norm_num)) ?_
    exact_mod_cast hn
  have h1 := h (-5) (by norm_num)
  have h2 := h 3 (by norm_num)
  have h3 := h 16 (by norm_num)
  have h4 := h 6 (by norm_num)
  push_cast at h1 h2 h3 h4
  refine ⟨⟨h1, h2⟩, ⟨h3, h4⟩, by decide, ?_, ?_, ?_⟩
  · intro c hc
    have hc' : IsBBox (houseFaces.rows.flatMap (facePts houseVerts (-1))) (fbox ⟨0, 20, 0, 10⟩) := by decide +kernel
    rw [fbox_unique hc hc']
    exact avoids_of (by decide +kernel)
  · intro r hr c hc
    simp only [houseFaces, List.mem_cons, List.not_mem_nil, or_false] at hr
    rcases hr with rfl | rfl
    · rw [fbox_unique hc house_square_clear.box]
      exact avoids_of (by decide +kernel)
    · rw [fbox_unique hc house_triangle_clear.box]
      exact avoids_of (by decide +kernel)
  · intro r hr c hc _
    simp only [houseFaces, List.mem_cons, List.not_mem_nil, or_false] at hr
    rcases hr with rfl | rfl
    · rw [fbox_unique hc house_square_clear.box]
      exact ⟨_, _, _, _, _, house_square_clear⟩
    · rw [fbox_unique hc house_triangle_clear.box]
      exact ⟨_, _, _, _, _, house_triangle_clear⟩

end Ex

set_option synthInstance.maxSize 400 in
set_option synthInstance.maxHeartbeats 200000 in
/-- The edge across the square into the triangle meets the conditions of C90. It is reported for the square, since it passes
through the middle of it, and the reported points are as given. -/
theorem Fl.C90_example : ∃ t : CellTree Fl, GoodMesh Fl.env Ex.houseVerts Ex.houseFaces (-1) ∧
    Makes Fl.env Ex.houseVerts Ex.houseFaces (-1) 4 2 t ∧ (∀ v ∈ Ex.houseVerts, ∃ q, v = fp q ∧ UsualPt 20 q) ∧
    EdgeClear Fl.env 20 Ex.houseVerts Ex.houseFaces (-1) Ex.houseA Ex.houseB ∧
    FaceClear Fl.env 20 10 25 (1 / 32) Ex.houseTol (facePts Ex.houseVerts (-1) [0, 1, 2, 3]) ⟨0, 10, 0, 10⟩ Ex.houseSquare
      Ex.houseA Ex.houseB ∧
    SquareIn Ex.houseSquare (lineAt Ex.houseA Ex.houseB (1 / 2)) (acc 20 25 (1 / 32) + 20 / 2 ^ 46) ∧
    t.intersectEdges Fl.env [(fp Ex.houseA, fp Ex.houseB)] 1 [0] = .ok ([0, 0], [0, 1],
      [(some (fp ⟨0, 4181913939701175 / 2 ^ 50⟩), some (fp ⟨10, 1447585594511945 / 2 ^ 48⟩)),
       (some (fp ⟨10, 1447585594511945 / 2 ^ 48⟩), some (fp ⟨16, 6⟩))]) := by
  obtain ⟨t, h1, h2⟩ := bind_eq_ok.1 (show (CellTree.init Fl.env Ex.houseVerts Ex.houseFaces (-1) 4 2 [0, 1] >>= fun t =>
    t.intersectEdges Fl.env [(fp Ex.houseA, fp Ex.houseB)] 1 [0]) = .ok ([0, 0], [0, 1],
      [(some (fp ⟨0, 4181913939701175 / 2 ^ 50⟩), some (fp ⟨10, 1447585594511945 / 2 ^ 48⟩)),
       (some (fp ⟨10, 1447585594511945 / 2 ^ 48⟩), some (fp ⟨16, 6⟩))]) by decide +kernel)
  refine ⟨t, Ex.house_good, ⟨_, by decide, h1⟩, Ex.house_usual, Ex.house_clear, Ex.house_square_clear, ?_, h2⟩
  intro q hx hy
  have hc : (lineAt Ex.houseA Ex.houseB (1 / 2)).x = 11 / 2 ∧ (lineAt Ex.houseA Ex.houseB (1 / 2)).y = 9 / 2 := by
    decide +kernel
  have hr : acc 20 25 (1 / 32) + 20 / 2 ^ 46 ≤ 1 := by decide +kernel
  rw [hc.1] at hx
  rw [hc.2] at hy
  have hx' := abs_le.1 (hx.trans hr)
  have hy' := abs_le.1 (hy.trans hr)
  intro s hs
  simp only [Ex.houseSquare, sides, pairs, List.cons_append, List.nil_append, List.mem_cons, List.not_mem_nil, or_false] at hs
  rcases hs with rfl | rfl | rfl | rfl <;> simp only [orient] <;> linarith [hx'.1, hx'.2, hy'.1, hy'.2]

/-- So C90 applies to it. -/
example : ∃ (t : CellTree Fl) (ii jj : List Nat) (xy : List (Option (Pt Fl) × Option (Pt Fl))) (cd : Option (Pt Fl) × Option (Pt Fl)) (p q : Pt Fl),
    Makes Fl.env Ex.houseVerts Ex.houseFaces (-1) 4 2 t ∧
    t.intersectEdges Fl.env [(fp Ex.houseA, fp Ex.houseB)] 1 [0] = .ok (ii, jj, xy) ∧ (0, 0, cd) ∈ ii.zip (jj.zip xy) ∧
    cd = (some p, some q) ∧ PieceAcc (acc 20 25 (1 / 32)) (InPoly Ex.houseSquare) Ex.houseA Ex.houseB (some (p, q)) := by
  obtain ⟨t, h1, h2, h3, h4, h5, h6, _⟩ := Fl.C90_example
  obtain ⟨ii, jj, xy, g1, _, _, _, _, _, g2⟩ := C90_intersect_edges_accurate (M := 20) h1 h2 (by norm_num) (by norm_num) h3
    (edges := [(fp Ex.houseA, fp Ex.houseB)])
    (by intro e he; rw [List.mem_singleton] at he; exact ⟨_, _, he, h4⟩) (nThreads := 1) (by decide) (sched := [0]) (by decide)
  obtain ⟨k1, k2⟩ := g2 0 0 _ _ _ _ _ _ _ _ _ rfl rfl h5
  obtain ⟨cd, hcd⟩ := k2 (1 / 2) (by norm_num) (by norm_num) h6
  obtain ⟨p, q, e1, e2⟩ := k1 cd hcd
  exact ⟨t, ii, jj, xy, cd, p, q, h2, g1, hcd, e1, e2⟩

end Celltree
