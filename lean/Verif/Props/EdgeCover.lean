import Verif.Props.Edges
import Verif.Props.PolyClip

/-!
# The pieces of an edge cover it: C82
-/

set_option linter.unusedSectionVars false

namespace Celltree

variable {K : Type} [Field K] [LinearOrder K] [IsStrictOrderedRing K]
variable {env : Env K} {vertices : List (Pt K)} {faces : IntArr} {fill nBuckets cellsPerLeaf : Int} {t : CellTree K}

/-- Properties that hold just above a number hold together just above it. -/
theorem exists_above {α : Type} {P : α → K → Prop} {u : K} (l : List α) (h : ∀ x ∈ l, ∃ e, u < e ∧ ∀ w, u < w → w < e → P x w) :
    ∃ e, u < e ∧ ∀ x ∈ l, ∀ w, u < w → w < e → P x w := by
  induction l with
  | nil => exact ⟨u + 1, by linarith, by simp⟩
  | cons x l ih =>
    obtain ⟨e, h1, h2⟩ := ih fun y hy => h y (List.mem_cons_of_mem _ hy)
    obtain ⟨e', h3, h4⟩ := h x List.mem_cons_self
    refine ⟨min e e', lt_min h1 h3, ?_⟩
    intro y hy w k1 k2
    rcases List.mem_cons.1 hy with rfl | hy
    · exact h4 w k1 (lt_of_lt_of_le k2 (min_le_right _ _))
    · exact h2 y hy w k1 (lt_of_lt_of_le k2 (min_le_left _ _))

/-- The same, just below a number. -/
theorem exists_below {α : Type} {P : α → K → Prop} {u : K} (l : List α) (h : ∀ x ∈ l, ∃ e, e < u ∧ ∀ w, e < w → w < u → P x w) :
    ∃ e, e < u ∧ ∀ x ∈ l, ∀ w, e < w → w < u → P x w := by
  obtain ⟨e, h1, h2⟩ := exists_above (P := fun x w => P x (-w)) (u := -u) l (by
    intro x hx
    obtain ⟨e, h1, h2⟩ := h x hx
    exact ⟨-e, by linarith, fun w k1 k2 => h2 _ (by linarith) (by linarith)⟩)
  refine ⟨-e, by linarith, fun x hx w k1 k2 => ?_⟩
  have := h2 x hx (-w) (by linarith) (by linarith)
  rwa [neg_neg] at this

/-- If finitely many sets cover an interval, and every set with more than one point is contained in a piece, then the pieces
cover the interval. -/
theorem pieces_cover {α : Type} {l : List α} {S : α → K → Prop} {Piece : α → K → K → Prop} {lo hi : K} (hlt : lo < hi)
    (hcov : ∀ w, lo ≤ w → w ≤ hi → ∃ x ∈ l, S x w)
    (hpiece : ∀ x ∈ l, ∀ v w, lo ≤ v → v < w → w ≤ hi → S x v → S x w → ∃ s t, Piece x s t)
    (hcont : ∀ x s t, Piece x s t → ∀ w, lo ≤ w → w ≤ hi → S x w → s ≤ w ∧ w ≤ t) {u : K} (hu : lo ≤ u) (hu' : u ≤ hi) :
    ∃ x ∈ l, ∃ s t, Piece x s t ∧ s ≤ u ∧ u ≤ t := by
  rcases hu'.lt_or_eq with hu' | rfl
  · obtain ⟨e, he, h⟩ := exists_above (u := u)
      (P := fun x w => w ≤ hi → S x w → ∃ s t, Piece x s t ∧ s ≤ u ∧ u ≤ t) l (by
      intro x hx
      by_cases hp : ∃ s t, Piece x s t
      · obtain ⟨s, t, hp⟩ := hp
        by_cases hs : u < s
        · exact ⟨s, hs, fun w k1 k2 k3 k4 => absurd (hcont x s t hp w (by linarith) k3 k4).1 (not_le.2 k2)⟩
        · refine ⟨u + 1, by linarith, fun w k1 _ k3 k4 => ⟨s, t, hp, not_lt.1 hs, ?_⟩⟩
          exact k1.le.trans (hcont x s t hp w (by linarith) k3 k4).2
      · by_cases hx' : ∃ v, u < v ∧ v ≤ hi ∧ S x v
        · obtain ⟨v, v1, v2, v3⟩ := hx'
          refine ⟨v, v1, fun w k1 k2 k3 k4 => absurd (hpiece x hx w v (by linarith) k2 v2 k4 v3) hp⟩
        · exact ⟨u + 1, by linarith, fun w k1 _ k3 k4 => absurd ⟨w, k1, k3, k4⟩ hx'⟩)
    have h2 : u < min e hi := lt_min he hu'
    obtain ⟨w, w1, w2⟩ := exists_between h2
    obtain ⟨x, hx, hs⟩ := hcov w (by linarith) (w2.le.trans (min_le_right _ _))
    exact ⟨x, hx, h x hx w w1 (lt_of_lt_of_le w2 (min_le_left _ _)) (w2.le.trans (min_le_right _ _)) hs⟩
  · obtain ⟨e, he, h⟩ := exists_below (u := u)
      (P := fun x w => lo ≤ w → S x w → ∃ s t, Piece x s t ∧ s ≤ u ∧ u ≤ t) l (by
      intro x hx
      by_cases hp : ∃ s t, Piece x s t
      · obtain ⟨s, t, hp⟩ := hp
        by_cases hs : t < u
        · exact ⟨t, hs, fun w k1 k2 k3 k4 => absurd (hcont x s t hp w k3 (by linarith) k4).2 (not_le.2 k1)⟩
        · refine ⟨u - 1, by linarith, fun w _ k1 k3 k4 => ⟨s, t, hp, ?_, not_lt.1 hs⟩⟩
          exact (hcont x s t hp w k3 (by linarith) k4).1.trans k1.le
      · by_cases hx' : ∃ v, v < u ∧ lo ≤ v ∧ S x v
        · obtain ⟨v, v1, v2, v3⟩ := hx'
          refine ⟨v, v1, fun w k1 k2 k3 k4 => absurd (hpiece x hx v w v2 k1 k2.le v3 k4) hp⟩
        · exact ⟨u - 1, by linarith, fun w _ k1 k3 k4 => absurd ⟨w, k1, k3, k4⟩ hx'⟩)
    have h2 : max e lo < u := max_lt he hlt
    obtain ⟨w, w1, w2⟩ := exists_between h2
    obtain ⟨x, hx, hs⟩ := hcov w ((le_max_right _ _).trans w1.le) w2.le
    exact ⟨x, hx, h x hx w (lt_of_le_of_lt (le_max_left _ _) w1) w2 ((le_max_right _ _).trans w1.le) hs⟩

/-- **C82** (exact arithmetic): for a mesh of strictly convex faces, the pieces that `intersect_edges` reports for an edge
leave no gaps. Every point of a part of the edge that is covered by the mesh is in one of the reported pieces. -/
theorem C82_pieces_cover (hm : GoodMesh env vertices faces fill) (hmin : 0 < env.minTol)
    (ht : Makes env vertices faces fill nBuckets cellsPerLeaf t)
    (hconv : ∀ r ∈ faces.rows, ∃ poly, CcwFace vertices fill r poly) (edges : List (Pt K × Pt K)) {nThreads : Nat}
    (hn : 0 < nThreads) {sched : List Nat} (hs : sched.Perm (List.range nThreads)) :
    ∃ ii jj xy, t.intersectEdges env edges nThreads sched = .ok (ii, jj, xy) ∧
      ∀ i a b lo hi, edges[i]? = some (a, b) → a ≠ b → 0 ≤ lo → lo < hi → hi ≤ 1 →
        (∀ w, lo ≤ w → w ≤ hi → ∃ r ∈ faces.rows, InFace (facePts vertices fill r) (lineAt a b w)) →
        ∀ u, lo ≤ u → u ≤ hi → ∃ j s t, (i, j, some (lineAt a b s), some (lineAt a b t)) ∈ ii.zip (jj.zip xy) ∧
          0 ≤ s ∧ s ≤ u ∧ u ≤ t ∧ t ≤ 1 := by
  obtain ⟨ii, jj, xy, h1, h2⟩ := C69_intersect_edges_near hm hmin ht edges hn hs
  refine ⟨ii, jj, xy, h1, ?_⟩
  intro i a b lo hi hi' hab hlo hlt hhi hcov u hu hu'
  have face : ∀ (j : Nat) r, faces.rows[j]? = some r → ∃ poly box, CcwFace vertices fill r poly ∧ IsBBox poly box ∧
      ∀ p, InPoly poly p ↔ InFace (facePts vertices fill r) p := by
    intro j r hj
    obtain ⟨poly, hp⟩ := hconv r (List.mem_of_getElem? hj)
    obtain ⟨_, _, bt, hc⟩ := ht.constructed' hm
    obtain ⟨box, _, hb⟩ := hc.boxes.box j r hj
    refine ⟨poly, box, hp, hb.of_mem ?_, fun p => ?_⟩
    · intro p
      rcases hp.2 with rfl | rfl
      · rfl
      · exact List.mem_reverse
    · rw [← hp.1.convex.inFace]
      rcases hp.2 with rfl | rfl
      · rfl
      · exact inFace_reverse
  have key := pieces_cover (l := List.range faces.rows.length) (u := u)
    (S := fun j w => ∃ r, faces.rows[j]? = some r ∧ InFace (facePts vertices fill r) (lineAt a b w))
    (Piece := fun j s t => (i, j, some (lineAt a b s), some (lineAt a b t)) ∈ ii.zip (jj.zip xy) ∧ 0 ≤ s ∧ t ≤ 1 ∧
      ∀ w, 0 ≤ w → w ≤ 1 → (∃ r, faces.rows[j]? = some r ∧ InFace (facePts vertices fill r) (lineAt a b w)) → s ≤ w ∧ w ≤ t)
    hlt
  obtain ⟨x, hx, s, t', hp, k1, k2⟩ := key (by
    intro w w1 w2
    obtain ⟨r, hr, h⟩ := hcov w w1 w2
    obtain ⟨j, hj⟩ := List.mem_iff_getElem?.1 hr
    exact ⟨j, List.mem_range.2 (List.getElem?_eq_some_iff.1 hj).1, r, hj, h⟩) (by
    rintro j hj v w v1 v2 v3 ⟨r, hr, h3⟩ ⟨r', hr', h4⟩
    rw [hr] at hr'; cases hr'
    obtain ⟨poly, box, p1, p2, p3⟩ := face j r hr
    obtain ⟨g1, g2⟩ := h2 i j a b r poly box hi' hab hr p1 p2
    obtain ⟨cd, hcd⟩ := g1 ⟨hab, v, w, by linarith, v2, by linarith, (p3 _).2 h3, (p3 _).2 h4⟩
    obtain ⟨c, d, rfl, s, t', q1, q2, q3, rfl, rfl, q4, _⟩ := g2 cd hcd
    refine ⟨s, t', hcd, q1, q3, ?_⟩
    rintro w w1 w2 ⟨r', hr', h⟩
    rw [hr] at hr'; cases hr'
    exact q4 w w1 w2 ((p3 _).2 h)) (by
    rintro j s t' ⟨_, _, _, h⟩ w w1 w2 hw
    exact h w (by linarith) (by linarith) hw) hu hu'
  exact ⟨x, s, t', hp.1, hp.2.1, k1, k2, hp.2.2.1⟩

/-- An interior point of one convex polygon that is in another one: the interiors overlap. -/
theorem exists_common_interior {A B : List (Pt K)} (hB : ConvexPoly B) {p : Pt K} (hA : InInterior A p) (hp : InPoly B p) :
    ∃ q, InInterior A q ∧ InInterior B q := by
  obtain ⟨c, hc⟩ := hB.exists_interior
  obtain ⟨e, he, h⟩ := exists_above (u := (0 : K)) (P := fun s w => s.1 ≠ s.2 → 0 < orient s.1 s.2 (lineAt p c w)) (sides A) (by
    intro s hs
    by_cases hne : s.1 ≠ s.2
    · have h1 := hA s hs hne
      by_cases h2 : 0 ≤ orient s.1 s.2 c
      · refine ⟨1, zero_lt_one, fun w w1 w2 _ => ?_⟩
        rw [orient_lineAt]
        have := mul_pos (sub_pos.2 w2) h1
        have := mul_nonneg w1.le h2
        linarith
      · have h3 : 0 < orient s.1 s.2 p - orient s.1 s.2 c := by linarith [not_le.1 h2]
        refine ⟨orient s.1 s.2 p / (orient s.1 s.2 p - orient s.1 s.2 c), div_pos h1 h3, fun w w1 w2 _ => ?_⟩
        rw [orient_lineAt]
        rw [lt_div_iff₀ h3] at w2
        linarith
    · exact ⟨1, zero_lt_one, fun w _ _ h => absurd h hne⟩)
  obtain ⟨w, w1, w2⟩ := exists_between (lt_min he zero_lt_one)
  refine ⟨lineAt p c w, fun s hs hne => h s hs w w1 (lt_of_lt_of_le w2 (min_le_left _ _)) hne, fun s hs hne => ?_⟩
  rw [orient_lineAt]
  have := mul_pos w1 (hc s hs hne)
  have := mul_nonneg (sub_nonneg.2 (w2.le.trans (min_le_right _ _))) (hp s hs)
  linarith

/-- **C82** (exact arithmetic): pieces of an edge in faces that do not overlap have only points in common that are on the
boundary of both faces. (The ends of the edge are not just outside of the faces.) -/
theorem C82_pieces_disjoint (hm : GoodMesh env vertices faces fill) (hmin : 0 < env.minTol)
    (ht : Makes env vertices faces fill nBuckets cellsPerLeaf t) (edges : List (Pt K × Pt K)) {nThreads : Nat}
    (hn : 0 < nThreads) {sched : List Nat} (hs : sched.Perm (List.range nThreads)) :
    ∃ ii jj xy, t.intersectEdges env edges nThreads sched = .ok (ii, jj, xy) ∧
      ∀ i j k a b r r' poly poly' box box', edges[i]? = some (a, b) → a ≠ b → faces.rows[j]? = some r → faces.rows[k]? = some r' →
        CcwFace vertices fill r poly → CcwFace vertices fill r' poly' → IsBBox poly box → IsBBox poly' box' →
        ¬ InBand env poly box a → ¬ InBand env poly box b → ¬ InBand env poly' box' a → ¬ InBand env poly' box' b →
        ¬ FacesOverlap vertices fill faces vertices fill faces j k →
        ∀ s t s' t' u, (i, j, some (lineAt a b s), some (lineAt a b t)) ∈ ii.zip (jj.zip xy) →
          (i, k, some (lineAt a b s'), some (lineAt a b t')) ∈ ii.zip (jj.zip xy) → s ≤ u → u ≤ t → s' ≤ u → u ≤ t' →
          InPoly poly (lineAt a b u) ∧ InPoly poly' (lineAt a b u) ∧ ¬ InInterior poly (lineAt a b u) ∧
            ¬ InInterior poly' (lineAt a b u) := by
  obtain ⟨ii, jj, xy, h1, _, _, _, _, h2⟩ := C40_intersect_edges_geometry hm hmin ht edges hn hs
  refine ⟨ii, jj, xy, h1, ?_⟩
  intro i j k a b r r' poly poly' box box' hi hab hj hk hp hp' hb hb' n1 n2 n3 n4 hno s t s' t' u g1 g2 u1 u2 u3 u4
  have inside : ∀ {j r poly box s t}, faces.rows[j]? = some r → CcwFace vertices fill r poly → IsBBox poly box →
      ¬ InBand env poly box a → ¬ InBand env poly box b → (i, j, some (lineAt a b s), some (lineAt a b t)) ∈ ii.zip (jj.zip xy) →
      s ≤ u → u ≤ t → InPoly poly (lineAt a b u) := by
    intro j r poly box s t hj hp hb n1 n2 g1 u1 u2
    obtain ⟨c, d, e, s', t', q1, q2, q3, e1, e2, q4⟩ := (h2 i j a b r poly box hi hab hj hp hb n1 n2 _).1 g1
    simp only [Prod.mk.injEq, Option.some.injEq] at e
    obtain ⟨rfl, rfl⟩ := e
    have := lineAt_inj hab e1
    have := lineAt_inj hab e2
    subst s' t'
    exact (q4 u (by linarith) (by linarith)).2 ⟨u1, u2⟩
  have i1 := inside hj hp hb n1 n2 g1 u1 u2
  have i2 := inside hk hp' hb' n3 n4 g2 u3 u4
  have int : ∀ {r poly}, CcwFace vertices fill r poly → ∀ {p : Pt K}, InInterior poly p → InFaceInterior (facePts vertices fill r) p := by
    intro r poly hp p h
    have := hp.1.convex.inFaceInterior.2 h
    rcases hp.2 with rfl | rfl
    · exact this
    · exact inFaceInterior_reverse.1 this
  refine ⟨i1, i2, fun h => ?_, fun h => ?_⟩
  · obtain ⟨q, q1, q2⟩ := exists_common_interior hp'.1.convex h i2
    exact hno ⟨r, r', hj, hk, q, int hp q1, int hp' q2⟩
  · obtain ⟨q, q1, q2⟩ := exists_common_interior hp.1.convex h i1
    exact hno ⟨r, r', hj, hk, q, int hp q2, int hp' q1⟩

/-- The faces of the example mesh, counter-clockwise. -/
theorem Ex.faces_ccw : ∀ r ∈ Ex.faces.rows, ∃ poly, CcwFace Ex.qVerts (-999) r poly := by
  intro r hr
  fin_cases hr
  · exact ⟨[⟨0, 0⟩, ⟨2, 0⟩, ⟨2, 2⟩, ⟨0, 2⟩], by decide +kernel, Or.inl (by decide +kernel)⟩
  · exact ⟨[⟨4, 0⟩, ⟨2, 2⟩, ⟨2, 0⟩], by decide +kernel, Or.inr (by decide +kernel)⟩
  · exact ⟨[⟨4, 0⟩, ⟨4, 2⟩, ⟨2, 2⟩], by decide +kernel, Or.inl (by decide +kernel)⟩
  · exact ⟨[⟨0, 2⟩, ⟨2, 2⟩, ⟨1, 4⟩], by decide +kernel, Or.inl (by decide +kernel)⟩

/-- The edge from (-1, 1) to (5, 1) is in the mesh from (0, 1) to (4, 1). The pieces that are reported are those from
(0, 1) to (2, 1), from (2, 1) to (3, 1) and from (3, 1) to (4, 1): see the example in `Edges.lean`. -/
example : ∀ w : ℚ, 1 / 6 ≤ w → w ≤ 5 / 6 →
    ∃ r ∈ Ex.faces.rows, InFace (facePts Ex.qVerts (-999) r) (lineAt ⟨-1, 1⟩ ⟨5, 1⟩ w) := by
  intro w h1 h2
  rcases le_total w (1 / 2) with h3 | h3
  · refine ⟨[0, 1, 4, 3], by decide, Or.inl ?_⟩
    rw [show facePts Ex.qVerts (-999) [0, 1, 4, 3] = [⟨0, 0⟩, ⟨2, 0⟩, ⟨2, 2⟩, ⟨0, 2⟩] by decide +kernel]
    simp only [InPoly, sides, pairs, List.cons_append, List.nil_append, List.forall_mem_cons, orient, lineAt]
    refine ⟨?_, ?_, ?_, ?_, fun _ h => by cases h⟩ <;> linarith
  · rcases le_total w (2 / 3) with h4 | h4
    · refine ⟨[1, 4, 2, -999], by decide, Or.inr ?_⟩
      rw [show (facePts Ex.qVerts (-999) [1, 4, 2, -999]).reverse = [⟨4, 0⟩, ⟨2, 2⟩, ⟨2, 0⟩] by decide +kernel]
      simp only [InPoly, sides, pairs, List.cons_append, List.nil_append, List.forall_mem_cons, orient, lineAt]
      refine ⟨?_, ?_, ?_, fun _ h => by cases h⟩ <;> linarith
    · refine ⟨[2, 5, 4, -999], by decide, Or.inl ?_⟩
      rw [show facePts Ex.qVerts (-999) [2, 5, 4, -999] = [⟨4, 0⟩, ⟨4, 2⟩, ⟨2, 2⟩] by decide +kernel]
      simp only [InPoly, sides, pairs, List.cons_append, List.nil_append, List.forall_mem_cons, orient, lineAt]
      refine ⟨?_, ?_, ?_, fun _ h => by cases h⟩ <;> linarith

end Celltree
