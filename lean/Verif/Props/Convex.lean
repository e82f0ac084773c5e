import Verif.Proofs.ConvexPoint
import Verif.Props.Points

/-!
# Points and convex faces: C24, C25
-/

set_option linter.unusedSectionVars false

namespace Celltree

section
variable {K : Type} [Field K] [LinearOrder K] [IsStrictOrderedRing K]
variable {env : Env K} {vertices : List (Pt K)} {faces : IntArr} {fill nBuckets cellsPerLeaf : Int} {t : CellTree K}
variable {points : List (Pt K)} {tol : K} {sched : List Nat}

/-- **C24** (exact arithmetic): every point strictly inside a convex face is accepted, for every tolerance. The corners are
`l`, counter-clockwise from any corner, or the same in reverse. -/
theorem C24_interior_accepted {l poly : List (Pt K)} (hl : ConvexPoly l) (hpoly : poly = l ∨ poly = l.reverse) {p : Pt K}
    (hp : InInterior l p) (tol : K) : pointInPolygonOrOnEdge p poly tol = .ok true := by
  have hne : poly ≠ [] := by
    rcases hpoly with rfl | rfl
    · exact hl.ne_nil
    · simpa using hl.ne_nil
  obtain ⟨b, h1, h2⟩ := pointInPolygonOrOnEdge_eq p hne tol
  have : Accepts tol l p := Or.inr (hl.interior_odd hp)
  have : b = true := by
    rw [h2]
    rcases hpoly with rfl | rfl
    · exact this
    · rwa [accepts_reverse]
  rw [h1, this]

/-- **C24**: it does not matter with which corner the list begins. -/
theorem C24_first_corner_irrelevant {l l' : List (Pt K)} (h : ConvexPoly (l ++ l')) : ConvexPoly (l' ++ l) ∧
    ∀ p, InInterior (l ++ l') p → InInterior (l' ++ l) p := by
  refine ⟨h.append_comm, fun p hp => hp.rotated ?_⟩
  exact List.isRotated_append

/-- With a positive tolerance every point of the closed face is accepted. -/
theorem C24_closed_accepted {l poly : List (Pt K)} (hl : ConvexPoly l) (hpoly : poly = l ∨ poly = l.reverse) {p : Pt K}
    (hp : InPoly l p) {tol : K} (htol : 0 < tol) : pointInPolygonOrOnEdge p poly tol = .ok true := by
  have hne : poly ≠ [] := by
    rcases hpoly with rfl | rfl
    · exact hl.ne_nil
    · simpa using hl.ne_nil
  obtain ⟨b, h1, h2⟩ := pointInPolygonOrOnEdge_eq p hne tol
  have : Accepts tol l p := by
    by_cases hi : InInterior l p
    · exact Or.inr (hl.interior_odd hi)
    · obtain ⟨s, hs, hne, u, h0, h5, rfl⟩ := hl.on_side hp hi
      exact Or.inl ⟨s, hs, onSegment.near ⟨u, h0, h5, rfl, rfl⟩ hne htol⟩
  have : b = true := by
    rw [h2]
    rcases hpoly with rfl | rfl
    · exact this
    · rwa [accepts_reverse]
  rw [h1, this]

/-- **C25** (exact arithmetic): a point outside a convex face is accepted only if it is near a side: within the tolerance,
and between the ends of the side along its dominant direction. -/
theorem C25_exterior_accepted_only_near {l poly : List (Pt K)} (hl : ConvexPoly l) (hpoly : poly = l ∨ poly = l.reverse)
    {p : Pt K} (hp : ¬ InPoly l p) {tol : K} (h : pointInPolygonOrOnEdge p poly tol = .ok true) :
    ∃ s ∈ sides l, Near tol p s := by
  have hne : poly ≠ [] := by
    rcases hpoly with rfl | rfl
    · exact hl.ne_nil
    · simpa using hl.ne_nil
  obtain ⟨b, h1, h2⟩ := pointInPolygonOrOnEdge_eq p hne tol
  have hb : b = true := by
    rw [h1] at h; exact Except.ok.inj h
  have ha : Accepts tol l p := by
    have := h2.1 hb
    rcases hpoly with rfl | rfl
    · exact this
    · rwa [accepts_reverse] at this
  rcases ha with ha | ha
  · exact ha
  · exact (hp (hl.odd_inPoly ha)).elim

/-- **C25** (exact arithmetic): without tolerance a point outside a convex face is rejected. -/
theorem C25_exterior_rejected {l poly : List (Pt K)} (hl : ConvexPoly l) (hpoly : poly = l ∨ poly = l.reverse)
    {p : Pt K} (hp : ¬ InPoly l p) : pointInPolygonOrOnEdge p poly 0 = .ok false := by
  have hne : poly ≠ [] := by
    rcases hpoly with rfl | rfl
    · exact hl.ne_nil
    · simpa using hl.ne_nil
  obtain ⟨b, h1, h2⟩ := pointInPolygonOrOnEdge_eq p hne 0
  cases b with
  | false => exact h1
  | true =>
    obtain ⟨s, _, hs⟩ := C25_exterior_accepted_only_near hl hpoly hp h1
    exact (not_near_zero p s hs).elim

/-- **C24** for the public function: a point in the closed convex face is located, in some face. -/
theorem C24_located (hm : GoodMesh env vertices faces fill)
    (ht : Makes env vertices faces fill nBuckets cellsPerLeaf t) (hs : sched.Perm (List.range points.length))
    (htol : 0 < tol) {i : Nat} {p : Pt K} (hp : points[i]? = some p) {r : List Int} (hr : r ∈ faces.rows)
    {l : List (Pt K)} (hl : ConvexPoly l) (hpoly : facePts vertices fill r = l ∨ facePts vertices fill r = l.reverse)
    (hin : InPoly l p) :
    ∃ res v, t.locatePoints env points (some tol) sched = .ok res ∧ res[i]? = some v ∧ v ≠ -1 := by
  obtain ⟨res, h1, h2, h3⟩ := C06_C07_locate_points (tol := tol) hm ht hs
  have hi : i < res.length := by rw [h2]; exact (List.getElem?_eq_some_iff.1 hp).1
  refine ⟨res, res[i], h1, by simp, ?_⟩
  rcases h3 i p res[i] hp (by simp) with ⟨j, r, h4, h5, h6⟩ | ⟨h4, h5⟩
  · omega
  · have hne : facePts vertices fill r ≠ [] := by
      rcases hpoly with h | h
      · rw [h]; exact hl.ne_nil
      · rw [h]; simpa using hl.ne_nil
    obtain ⟨b, g1, g2⟩ := pointInPolygonOrOnEdge_eq p hne tol
    rw [C24_closed_accepted hl hpoly hin htol] at g1
    have ha := g2.1 (Except.ok.inj g1).symm
    refine (h5 r hr ?_ ha).elim
    have hm : ∀ v, v ∈ facePts vertices fill r ↔ v ∈ l := by
      rcases hpoly with h | h <;> rw [h] <;> simp
    obtain ⟨a, a1, a2⟩ := hl.exists_le hin (d := ⟨1, 0⟩) (Or.inl one_ne_zero)
    obtain ⟨b, b1, b2⟩ := hl.exists_ge hin (d := ⟨1, 0⟩) (Or.inl one_ne_zero)
    obtain ⟨c, c1, c2⟩ := hl.exists_le hin (d := ⟨0, 1⟩) (Or.inr one_ne_zero)
    obtain ⟨d, d1, d2⟩ := hl.exists_ge hin (d := ⟨0, 1⟩) (Or.inr one_ne_zero)
    simp only [along, one_mul, zero_mul, add_zero, zero_add] at a2 b2 c2 d2
    exact ⟨⟨a, (hm a).2 a1, a2⟩, ⟨b, (hm b).2 b1, b2⟩, ⟨c, (hm c).2 c1, c2⟩, ⟨d, (hm d).2 d1, d2⟩⟩

/-- **C25** for the public function: a point that is located in a convex face is in that closed face, or near a side of it. -/
theorem C25_located (hm : GoodMesh env vertices faces fill)
    (ht : Makes env vertices faces fill nBuckets cellsPerLeaf t) (hs : sched.Perm (List.range points.length))
    {i j : Nat} {p : Pt K} (hp : points[i]? = some p) {res : List Int}
    (hres : t.locatePoints env points (some tol) sched = .ok res) (hv : res[i]? = some (j : Int)) :
    ∃ r, faces.rows[j]? = some r ∧ ∀ l, ConvexPoly l →
      (facePts vertices fill r = l ∨ facePts vertices fill r = l.reverse) → InPoly l p ∨ ∃ s ∈ sides l, Near tol p s := by
  obtain ⟨res', h1, h2, h3⟩ := C06_C07_locate_points (tol := tol) hm ht hs
  rw [hres] at h1
  obtain rfl := Except.ok.inj h1
  rcases h3 i p _ hp hv with ⟨j', r, h4, h5, h6⟩ | ⟨h4, _⟩
  · obtain rfl : j = j' := by omega
    refine ⟨r, h5, fun l hl hpoly => ?_⟩
    have ha : Accepts tol l p := by
      rcases hpoly with h | h
      · rwa [h] at h6
      · rwa [h, accepts_reverse] at h6
    rcases ha with ha | ha
    · exact Or.inr ha
    · exact Or.inl (hl.odd_inPoly ha)
  · omega

end

/-! ## The hypotheses can be met -/

instance {K : Type} [Field K] [LinearOrder K] (l : List (Pt K)) (p : Pt K) : Decidable (InPoly l p) := by
  unfold InPoly; infer_instance

instance {K : Type} [Field K] [LinearOrder K] (l : List (Pt K)) (p : Pt K) : Decidable (InInterior l p) := by
  unfold InInterior; infer_instance

/-- All triples of entries, in order. -/
def triples {α : Type} : List α → List (α × α × α)
  | [] => []
  | a :: l => (pairsOf l).map (fun bc => (a, bc)) ++ triples l
where
  pairsOf : List α → List (α × α)
  | [] => []
  | b :: l => l.map (fun c => (b, c)) ++ pairsOf l

theorem mem_pairsOf {α : Type} {b c : α} {l : List α} : (b, c) ∈ triples.pairsOf l ↔ List.Sublist [b, c] l := by
  induction l with
  | nil => simp [triples.pairsOf]
  | cons x l ih =>
    rw [triples.pairsOf, List.mem_append, ih, List.mem_map]
    constructor
    · rintro (⟨c', hc, e⟩ | h)
      · cases e
        exact List.Sublist.cons_cons _ (List.singleton_sublist.2 hc)
      · exact List.Sublist.cons _ h
    · intro h
      cases h with
      | cons _ h => exact Or.inr h
      | cons_cons _ h => exact Or.inl ⟨c, List.singleton_sublist.1 h, rfl⟩

theorem mem_triples {α : Type} {a b c : α} {l : List α} : (a, b, c) ∈ triples l ↔ List.Sublist [a, b, c] l := by
  induction l with
  | nil => simp [triples]
  | cons x l ih =>
    rw [triples, List.mem_append, ih, List.mem_map]
    constructor
    · rintro (⟨bc, hc, e⟩ | h)
      · cases e
        exact List.Sublist.cons_cons _ (mem_pairsOf.1 hc)
      · exact List.Sublist.cons _ h
    · intro h
      cases h with
      | cons _ h => exact Or.inr h
      | cons_cons _ h => exact Or.inl ⟨(b, c), mem_pairsOf.2 h, rfl⟩

/-- Convexity can be decided. -/
theorem convexPoly_iff {K : Type} [Field K] [LinearOrder K] (l : List (Pt K)) :
    ConvexPoly l ↔ (∀ t ∈ triples l, 0 ≤ orient t.1 t.2.1 t.2.2) ∧ ∃ t ∈ triples l, 0 < orient t.1 t.2.1 t.2.2 := by
  constructor
  · rintro ⟨h1, a, b, c, h2, h3⟩
    exact ⟨fun ⟨a, b, c⟩ ht => h1 a b c (mem_triples.1 ht), (a, b, c), mem_triples.2 h2, h3⟩
  · rintro ⟨h1, ⟨a, b, c⟩, h2, h3⟩
    exact ⟨fun a b c h => h1 (a, b, c) (mem_triples.2 h), a, b, c, mem_triples.1 h2, h3⟩

instance {K : Type} [Field K] [LinearOrder K] (l : List (Pt K)) : Decidable (ConvexPoly l) :=
  decidable_of_iff _ (convexPoly_iff l).symm

/-- A pentagon with a straight corner; the ray from the point goes through a corner. -/
def Ex.pentagon : List (Pt ℚ) := [⟨0, 0⟩, ⟨2, 0⟩, ⟨4, 0⟩, ⟨5, 2⟩, ⟨2, 4⟩]

example : ConvexPoly Ex.pentagon ∧ InInterior Ex.pentagon ⟨2, 2⟩ ∧ InPoly Ex.pentagon ⟨3, 0⟩ ∧
    ¬ InInterior Ex.pentagon ⟨3, 0⟩ ∧ ¬ InPoly Ex.pentagon ⟨-1, 2⟩ ∧ ¬ InPoly Ex.pentagon ⟨3, -1 / 10⟩ := by
  decide +kernel

example : pointInPolygonOrOnEdge (⟨2, 2⟩ : Pt ℚ) Ex.pentagon 0 = .ok true ∧
    pointInPolygonOrOnEdge (⟨2, 2⟩ : Pt ℚ) Ex.pentagon.reverse 0 = .ok true ∧
    pointInPolygonOrOnEdge (⟨3, 0⟩ : Pt ℚ) Ex.pentagon (1 / 100) = .ok true ∧
    pointInPolygonOrOnEdge (⟨-1, 2⟩ : Pt ℚ) Ex.pentagon 0 = .ok false ∧
    pointInPolygonOrOnEdge (⟨3, -1 / 10⟩ : Pt ℚ) Ex.pentagon (1 / 5) = .ok true ∧
    pointInPolygonOrOnEdge (⟨3, -1 / 10⟩ : Pt ℚ) Ex.pentagon (1 / 20) = .ok false := by
  decide +kernel

/-- Without tolerance the closed polygon is not decided: of the points on the boundary some are accepted, some not. -/
example : pointInPolygonOrOnEdge (⟨3, 0⟩ : Pt ℚ) Ex.pentagon 0 = .ok true ∧
    pointInPolygonOrOnEdge (⟨5, 2⟩ : Pt ℚ) Ex.pentagon 0 = .ok false := by
  decide +kernel

/-- The first face of the example mesh is convex; the second is convex in reverse. -/
example : ConvexPoly (facePts Ex.qVerts (-999) [0, 1, 4, 3]) ∧ ConvexPoly (facePts Ex.qVerts (-999) [1, 4, 2, -999]).reverse ∧
    InPoly (facePts Ex.qVerts (-999) [0, 1, 4, 3]) ⟨1, 1⟩ := by
  decide +kernel

end Celltree
