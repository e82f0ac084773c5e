import Verif.Proofs.CyrusNear
import Verif.Props.Convex

/-!
# Clipping segments to convex polygons: C39, C55, C69
-/

set_option linter.unusedSectionVars false

namespace Celltree

section
variable {K : Type} [Field K] [LinearOrder K] [IsStrictOrderedRing K]

/-- On the line through a side there are no other corners. -/
theorem StrictlyConvex.two_on_line {l : List (Pt K)} (h : StrictlyConvex l) {s : Pt K × Pt K} (hs : s ∈ sides l) :
    s.1 ≠ s.2 ∧ ∀ v ∈ l, orient s.1 s.2 v = 0 → v = s.1 ∨ v = s.2 := by
  rcases side_rotation hs with ⟨rest, hr⟩ | ⟨e, _⟩
  · have h' := h.rotated hr.symm
    have hrest : ∀ v ∈ rest, 0 < orient s.1 s.2 v := fun v hv =>
      h'.turn _ _ _ (List.Sublist.cons_cons _ (List.Sublist.cons_cons _ (List.singleton_sublist.2 hv)))
    constructor
    · intro e
      have := h'.length
      match rest, hrest with
      | [], _ => simp at this
      | x :: _, hrest =>
        have := hrest x List.mem_cons_self
        rw [e, orient_same] at this
        exact lt_irrefl _ this
    · intro v hv h0
      rcases List.mem_cons.1 (hr.mem_iff.2 hv) with rfl | hv
      · exact Or.inl rfl
      rcases List.mem_cons.1 hv with rfl | hv
      · exact Or.inr rfl
      · have := hrest v hv
        rw [h0] at this
        exact (lt_irrefl _ this).elim
  · have := h.length
    rw [e] at this
    simp at this

/-- With a positive tolerance, the test of an end point decides whether it is in the closed polygon, unless the point is
outside but within the tolerance of a side. -/
theorem accepts_iff_inPoly {l : List (Pt K)} (hl : ConvexPoly l) {tol : K} (htol : 0 < tol) {p : Pt K}
    (hp : ∀ s ∈ sides l, Near tol p s → InPoly l p) : Accepts tol l p ↔ InPoly l p := by
  constructor
  · rintro (⟨s, hs, h⟩ | h)
    · exact hp s hs h
    · exact hl.odd_inPoly h
  · intro h
    obtain ⟨b, h1, h2⟩ := pointInPolygonOrOnEdge_eq p hl.ne_nil tol
    rw [C24_closed_accepted hl (Or.inl rfl) h htol] at h1
    exact h2.1 (Except.ok.inj h1).symm

/-- **C39** (exact arithmetic): the clip of a segment to a strictly convex polygon returns nothing if no piece of positive
length is in the polygon, and otherwise the ends of the piece in the polygon. The end points must not be outside but
within the tolerance. -/
theorem C39_cyrus_beck {l : List (Pt K)} (hl : StrictlyConvex l) {a b : Pt K} {tol : K} (htol : 0 < tol)
    (ha : ∀ s ∈ sides l, Near tol a s → InPoly l a) (hb : ∀ s ∈ sides l, Near tol b s → InPoly l b) :
    ∃ r, cyrusBeck a b l tol = .ok r ∧ (a = b → r = none) ∧ (a ≠ b → ClipSpec a b (InPoly l) r) := by
  apply cyrusBeck_spec hl.convex _ (accepts_iff_inPoly hl.convex htol ha) (accepts_iff_inPoly hl.convex htol hb)
  intro hab s hs z1 z2
  obtain ⟨h1, h2⟩ := hl.two_on_line hs
  refine ⟨h1, fun v hv z => h2 v hv ?_⟩
  exact orient_collinear hab z1 z2 z

/-- What remains of **C55**: straight and repeated corners do no harm if none of them is on the line of the segment. Missing:
segments along a straight corner (see below). -/
theorem C55_straight_corners_partial {l : List (Pt K)} (hl : ConvexPoly l) {a b : Pt K} {tol : K} (htol : 0 < tol)
    (ha : ∀ s ∈ sides l, Near tol a s → InPoly l a) (hb : ∀ s ∈ sides l, Near tol b s → InPoly l b)
    (hline : ∀ s ∈ sides l, orient a b s.1 = 0 → orient a b s.2 = 0 →
      s.1 ≠ s.2 ∧ ∀ v ∈ l, orient a b v = 0 → v = s.1 ∨ v = s.2) :
    ∃ r, cyrusBeck a b l tol = .ok r ∧ (a = b → r = none) ∧ (a ≠ b → ClipSpec a b (InPoly l) r) :=
  cyrusBeck_spec hl (fun _ => hline) (accepts_iff_inPoly hl htol ha) (accepts_iff_inPoly hl htol hb)

/-- **C69** (exact arithmetic): also if an end of the segment is outside but within the tolerance, the reported piece contains
all of the segment that is in the polygon, and all of its points are at most twice the tolerance away from the polygon. -/
theorem C69_clip_near {l : List (Pt K)} (hl : StrictlyConvex l) {a b : Pt K} {tol : K} (htol : 0 < tol) (hab : a ≠ b) :
    ∃ r, cyrusBeck a b l tol = .ok r ∧ ClipNear (2 * tol) a b (InPoly l) r := by
  have hacc : ∀ p, InPoly l p → Accepts tol l p := by
    intro p h
    obtain ⟨b, h1, h2⟩ := pointInPolygonOrOnEdge_eq p hl.convex.ne_nil tol
    rw [C24_closed_accepted hl.convex (Or.inl rfl) h htol] at h1
    exact h2.1 (Except.ok.inj h1).symm
  apply cyrusBeck_near hl.convex htol hab _ (hacc a) (hacc b)
  intro s hs z1 z2
  obtain ⟨h1, h2⟩ := hl.two_on_line hs
  exact ⟨h1, fun v hv z => h2 v hv (orient_collinear hab z1 z2 z)⟩

/-- **C39** (exact arithmetic): no division by zero and no other failure, for any polygon whatever. -/
theorem C39_never_fails (a b : Pt K) {poly : List (Pt K)} (hne : poly ≠ []) (tol : K) :
    ∃ r, cyrusBeck a b poly tol = .ok r :=
  cyrusBeck_total a b hne tol

end

/-! ## The hypotheses can be met -/

theorem strictlyConvex_iff {K : Type} [Field K] [LinearOrder K] (l : List (Pt K)) :
    StrictlyConvex l ↔ 3 ≤ l.length ∧ ∀ t ∈ triples l, 0 < orient t.1 t.2.1 t.2.2 :=
  ⟨fun ⟨h1, h2⟩ => ⟨h1, fun ⟨a, b, c⟩ ht => h2 a b c (mem_triples.1 ht)⟩,
    fun ⟨h1, h2⟩ => ⟨h1, fun a b c h => h2 (a, b, c) (mem_triples.2 h)⟩⟩

instance {K : Type} [Field K] [LinearOrder K] (l : List (Pt K)) : Decidable (StrictlyConvex l) :=
  decidable_of_iff _ (strictlyConvex_iff l).symm

instance {K : Type} [Field K] [LinearOrder K] (tol : K) (p : Pt K) (s : Pt K × Pt K) : Decidable (Near tol p s) := by
  unfold Near; infer_instance

def Ex.quad : List (Pt ℚ) := [⟨0, 0⟩, ⟨4, 0⟩, ⟨5, 3⟩, ⟨1, 4⟩]

/-- Ends just outside: the whole segment is reported; or the piece up to a corner. -/
example : StrictlyConvex Ex.quad ∧ cyrusBeck ⟨1, -1 / 200⟩ ⟨3, -1 / 200⟩ Ex.quad (1 / 100) =
      .ok (some (⟨1, -1 / 200⟩, ⟨3, -1 / 200⟩)) ∧ ¬ InPoly Ex.quad ⟨1, -1 / 200⟩ ∧
    cyrusBeck ⟨399 / 100, -1 / 200⟩ ⟨5, 1 / 2⟩ Ex.quad (1 / 100) = .ok (some (⟨399 / 100, -1 / 200⟩, ⟨4, 0⟩)) ∧
    cyrusBeck ⟨5, 1 / 2⟩ ⟨399 / 100, -1 / 200⟩ Ex.quad (1 / 100) = .ok none := by
  decide +kernel

/-- Through the polygon, along a side, from inside, through one corner only. -/
example : StrictlyConvex Ex.quad ∧ cyrusBeck ⟨-1, 1⟩ ⟨7, 1⟩ Ex.quad (1 / 100) = .ok (some (⟨1 / 4, 1⟩, ⟨13 / 3, 1⟩)) ∧
    cyrusBeck ⟨6, 0⟩ ⟨1, 0⟩ Ex.quad (1 / 100) = .ok (some (⟨4, 0⟩, ⟨1, 0⟩)) ∧
    cyrusBeck ⟨2, 1⟩ ⟨2, 9⟩ Ex.quad (1 / 100) = .ok (some (⟨2, 1⟩, ⟨2, 15 / 4⟩)) ∧
    cyrusBeck ⟨3, -1⟩ ⟨5, 1⟩ Ex.quad (1 / 100) = .ok none := by
  decide +kernel

example : ∀ p ∈ ([⟨-1, 1⟩, ⟨7, 1⟩, ⟨6, 0⟩, ⟨1, 0⟩] : List (Pt ℚ)), ∀ s ∈ sides Ex.quad,
    Near (1 / 100) p s → InPoly Ex.quad p := by
  decide +kernel

/-! ## C55: straight corners -/

/-- A square with an extra corner in the middle of its lower side, as next to a finer mesh. -/
def Ex.hanging : List (Pt ℚ) := [⟨0, 0⟩, ⟨1, 0⟩, ⟨2, 0⟩, ⟨2, 2⟩, ⟨0, 2⟩]

/-- **C55** does not hold: a segment along a side with a straight corner is clipped to a part of that side only, or is
not found at all. -/
theorem C55_straight_corner_violated :
    ConvexPoly Ex.hanging ∧
    cyrusBeck ⟨-1, 0⟩ ⟨3, 0⟩ Ex.hanging (1 / 100) = .ok (some (⟨0, 0⟩, ⟨1, 0⟩)) ∧
    ¬ ClipSpec ⟨-1, 0⟩ ⟨3, 0⟩ (InPoly Ex.hanging) (some (⟨0, 0⟩, ⟨1, 0⟩)) ∧
    cyrusBeck ⟨5 / 4, 0⟩ ⟨3, 0⟩ Ex.hanging (1 / 100) = .ok none ∧
    ¬ ClipSpec ⟨5 / 4, 0⟩ ⟨3, 0⟩ (InPoly Ex.hanging) none := by
  refine ⟨by decide +kernel, by decide +kernel, ?_, by decide +kernel, ?_⟩
  · rintro ⟨s, t, _, _, _, _, ht, h⟩
    have ht' : (1 : ℚ) = -1 + t * (3 - -1) := congrArg Pt.x ht
    have := (h (3 / 4) (by norm_num) (by norm_num)).1 (by decide +kernel)
    linarith [this.2]
  · intro h
    exact h 0 (3 / 7) (le_refl _) (by norm_num) (by norm_num) (by decide +kernel) (by decide +kernel)

set_option synthInstance.maxSize 1000 in
/-- **C55** does not hold for the public function either: of the first edge a half of the shared piece is reported, the
second is not found; an edge through the middle is clipped as it should be. -/
theorem C55_intersect_edges_violated : ∃ t, Makes Ex.qEnv Ex.hanging ⟨5, [[0, 1, 2, 3, 4]]⟩ (-1) 4 2 t ∧
    t.intersectEdges Ex.qEnv [(⟨-1, 0⟩, ⟨3, 0⟩), (⟨5 / 4, 0⟩, ⟨3, 0⟩), (⟨-1, 1⟩, ⟨3, 1⟩)] 2 [1, 0] =
      .ok ([0, 2], [0, 0], [(some ⟨0, 0⟩, some ⟨1, 0⟩), (some ⟨0, 1⟩, some ⟨2, 1⟩)]) := by
  obtain ⟨t, h1, h2⟩ := bind_eq_ok.1 (show (CellTree.init Ex.qEnv Ex.hanging ⟨5, [[0, 1, 2, 3, 4]]⟩ (-1) 4 2 [0] >>= fun t =>
    t.intersectEdges Ex.qEnv [(⟨-1, 0⟩, ⟨3, 0⟩), (⟨5 / 4, 0⟩, ⟨3, 0⟩), (⟨-1, 1⟩, ⟨3, 1⟩)] 2 [1, 0]) =
      .ok ([0, 2], [0, 0], [(some ⟨0, 0⟩, some ⟨1, 0⟩), (some ⟨0, 1⟩, some ⟨2, 1⟩)]) by decide +kernel)
  exact ⟨t, ⟨[0], by decide, h1⟩, h2⟩

end Celltree
