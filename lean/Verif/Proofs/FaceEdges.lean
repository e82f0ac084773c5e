import Verif.Proofs.Edges
import Verif.Proofs.Orient
import Verif.Proofs.LiangBarsky

/-!
# Edge search on a tree of faces, in exact arithmetic
-/

set_option linter.unusedSectionVars false

namespace Celltree

variable {K : Type} [Field K] [LinearOrder K] [IsStrictOrderedRing K]

/-- Clipping reports a hit exactly if there is a piece in common. -/
theorem ClipSpec.isSome_iff {a b : Pt K} (hab : a ≠ b) {S : Pt K → Prop} {r : Option (Pt K × Pt K)}
    (h : ClipSpec a b S r) : r.isSome = true ↔ SharesPiece a b S := by
  match r, h with
  | none, h =>
    refine ⟨fun h => by simp at h, ?_⟩
    rintro ⟨_, u, v, h0, h1, h2, h3, h4⟩
    exact (h u v h0 h1 h2 h3 h4).elim
  | some (c, d), ⟨s, t, h0, h1, h2, _, _, h⟩ =>
    refine ⟨fun _ => ⟨hab, s, t, h0, h1, h2, ?_, ?_⟩, fun _ => rfl⟩
    · exact (h s h0 (by linarith)).2 ⟨le_refl _, h1.le⟩
    · exact (h t (by linarith) h2).2 ⟨h1.le, le_refl _⟩

theorem SharesPiece.mono {a b : Pt K} {S T : Pt K → Prop} (h : SharesPiece a b S) (hST : ∀ p, S p → T p) :
    SharesPiece a b T := by
  obtain ⟨h0, u, v, h1, h2, h3, h4, h5⟩ := h
  exact ⟨h0, u, v, h1, h2, h3, hST _ h4, hST _ h5⟩

/-- The test against a box. -/
theorem cohenSutherland_isSome {box : Box K} (hb : box.Nonempty) (a b : Pt K) :
    ∃ r, cohenSutherland a b box = .ok r ∧ (r.isSome = true ↔ SharesPiece a b (InBox box)) := by
  obtain ⟨r, h1, h2, h3⟩ := cohenSutherland_spec hb a b
  refine ⟨r, h1, ?_⟩
  by_cases hab : a = b
  · rw [h2 hab]
    exact ⟨fun h => by simp at h, fun h => (h.1 hab).elim⟩
  · exact (h3 hab).isSome_iff hab

/-- Which children are visited. -/
theorem edgeSides_exact (nd : Node K) (a b : Pt K) :
    ∃ l r, edgeSides nd a b (toVector a b) = .ok (l, r) ∧
      (l = true ↔ min (a.get nd.dim) (b.get nd.dim) ≤ nd.Lmax) ∧
      (r = true ↔ nd.Rmin ≤ max (a.get nd.dim) (b.get nd.dim)) := by
  have hV : (toVector a b).get nd.dim = b.get nd.dim - a.get nd.dim := by
    unfold toVector Pt.get; cases nd.dim <;> rfl
  unfold edgeSides
  rw [hV]
  generalize a.get nd.dim = x
  generalize b.get nd.dim = y
  simp only [gt_iff_lt, ge_iff_le]
  rcases lt_trichotomy x y with h | h | h
  · have hd : 0 < y - x := sub_pos.2 h
    simp only [hd, if_true]
    rw [min_eq_left h.le, max_eq_right h.le]
    refine ⟨decide (x ≤ nd.Lmax), decide (nd.Rmin ≤ y), ?_, by simp, by simp⟩
    by_cases h1 : x ≤ nd.Lmax <;> by_cases h2 : nd.Rmin ≤ y <;>
      simp only [sub_nonneg, sub_nonpos, h1, h2, decide_true, decide_false, if_true, fdiv_eq hd.ne', ok_bind,
        Bool.false_eq_true, if_false]
    · rw [decide_eq_true (div_nonneg (sub_nonneg.2 h1) hd.le),
        decide_eq_true ((div_nonpos_of_nonpos_of_nonneg (sub_nonpos.2 h2) hd.le).trans zero_le_one)]
    · rw [decide_eq_true (div_nonneg (sub_nonneg.2 h1) hd.le)]
    · rw [decide_eq_true ((div_nonpos_of_nonpos_of_nonneg (sub_nonpos.2 h2) hd.le).trans zero_le_one)]
  · subst h
    simp only [sub_self, lt_irrefl, if_false, min_self, max_self, sub_nonneg, sub_nonpos]
    exact ⟨_, _, rfl, by simp, by simp⟩
  · have hd : y - x < 0 := sub_neg.2 h
    simp only [hd.not_gt, if_false, hd, if_true]
    rw [min_eq_right h.le, max_eq_left h.le]
    refine ⟨decide (y ≤ nd.Lmax), decide (nd.Rmin ≤ x), ?_, by simp, by simp⟩
    have e1 : y ≤ nd.Lmax → 0 ≤ 1 - (nd.Lmax - y) / (y - x) := fun h1 => by
      have := div_nonpos_of_nonneg_of_nonpos (sub_nonneg.2 h1) hd.le
      linarith
    have e2 : nd.Rmin ≤ x → 1 - (nd.Rmin - x) / (y - x) ≤ 1 := fun h2 => by
      have := div_nonneg_of_nonpos (sub_nonpos.2 h2) hd.le
      linarith
    by_cases h1 : y ≤ nd.Lmax <;> by_cases h2 : nd.Rmin ≤ x <;>
      simp only [sub_nonneg, sub_nonpos, h1, h2, decide_true, decide_false, if_true, fdiv_eq hd.ne, ok_bind,
        Bool.false_eq_true, if_false]
    · rw [decide_eq_true (by have := e1 h1; linarith), decide_eq_true (e2 h2)]
    · rw [decide_eq_true (by have := e1 h1; linarith)]
    · rw [decide_eq_true (e2 h2)]

theorem edgeSel_left {nd : Node K} {a b : Pt K} (h : min (a.get nd.dim) (b.get nd.dim) ≤ nd.Lmax) :
    false ∈ edgeSel a b nd := by
  obtain ⟨l, r, h1, h2, _⟩ := edgeSides_exact nd a b
  unfold edgeSel
  rw [h1]
  simp [h2.2 h]

theorem edgeSel_right {nd : Node K} {a b : Pt K} (h : nd.Rmin ≤ max (a.get nd.dim) (b.get nd.dim)) :
    true ∈ edgeSel a b nd := by
  obtain ⟨l, r, h1, _, h2⟩ := edgeSides_exact nd a b
  unfold edgeSel
  rw [h1]
  simp [h2.2 h]

theorem lineAt_get (a b : Pt K) (u : K) (dim : Bool) : (lineAt a b u).get dim = a.get dim + u * (b.get dim - a.get dim) := by
  cases dim <;> rfl

theorem min_le_lineAt (x y u : K) (h0 : 0 ≤ u) (h1 : u ≤ 1) : min x y ≤ x + u * (y - x) := by
  rcases le_total x y with h | h
  · rw [min_eq_left h]; nlinarith [mul_nonneg h0 (sub_nonneg.2 h)]
  · rw [min_eq_right h]; nlinarith [mul_nonneg (sub_nonneg.2 h1) (sub_nonneg.2 h)]

theorem lineAt_le_max (x y u : K) (h0 : 0 ≤ u) (h1 : u ≤ 1) : x + u * (y - x) ≤ max x y := by
  rcases le_total x y with h | h
  · rw [max_eq_right h]; nlinarith [mul_nonneg (sub_nonneg.2 h1) (sub_nonneg.2 h)]
  · rw [max_eq_left h]; nlinarith [mul_nonneg h0 (sub_nonneg.2 h)]

theorem InBox.get {b : Box K} {p : Pt K} (h : InBox b p) (dim : Bool) : b.lo dim ≤ p.get dim ∧ p.get dim ≤ b.hi dim := by
  obtain ⟨h1, h2, h3, h4⟩ := h
  cases dim
  · exact ⟨h1, h2⟩
  · exact ⟨h3, h4⟩

/-- The traversal goes down to every cell whose box meets the segment. -/
theorem edge_goes_down {a b : Pt K} {c : Box K} {u : K} (h0 : 0 ≤ u) (h1 : u ≤ 1) (h : InBox c (lineAt a b u))
    (nd : Node K) :
    (c.hi nd.dim ≤ nd.Lmax → false ∈ edgeSel a b nd) ∧ (nd.Rmin ≤ c.lo nd.dim → true ∈ edgeSel a b nd) := by
  obtain ⟨g1, g2⟩ := h.get nd.dim
  rw [lineAt_get] at g1 g2
  constructor
  · intro h
    exact edgeSel_left (((min_le_lineAt _ _ u h0 h1).trans g2).trans h)
  · intro h
    exact edgeSel_right ((h.trans g1).trans (lineAt_le_max _ _ u h0 h1))

theorem IsBBox.nonempty {pts : List (Pt K)} {b : Box K} (h : IsBBox pts b) : b.Nonempty := by
  obtain ⟨p, hp, hpx⟩ := h.left
  obtain ⟨q, hq, hqy⟩ := h.bottom
  exact ⟨hpx ▸ (h.contains p hp).2.1, hqy ▸ (h.contains q hq).2.2.2⟩

theorem IsBBox.unique {pts : List (Pt K)} {b c : Box K} (hb : IsBBox pts b) (hc : IsBBox pts c) : b = c := by
  have key : ∀ {b c : Box K}, IsBBox pts b → IsBBox pts c →
      b.xmin ≤ c.xmin ∧ c.xmax ≤ b.xmax ∧ b.ymin ≤ c.ymin ∧ c.ymax ≤ b.ymax := by
    intro b c hb hc
    obtain ⟨p, hp, e1⟩ := hc.left
    obtain ⟨q, hq, e2⟩ := hc.right
    obtain ⟨r, hr, e3⟩ := hc.bottom
    obtain ⟨s, hs, e4⟩ := hc.top
    exact ⟨e1 ▸ (hb.contains p hp).1, e2 ▸ (hb.contains q hq).2.1, e3 ▸ (hb.contains r hr).2.2.1,
      e4 ▸ (hb.contains s hs).2.2.2⟩
  obtain ⟨h1, h2, h3, h4⟩ := key hb hc
  obtain ⟨g1, g2, g3, g4⟩ := key hc hb
  cases b
  cases c
  simp only [Box.mk.injEq]
  exact ⟨le_antisymm h1 g1, le_antisymm g2 h2, le_antisymm h3 g3, le_antisymm g4 h4⟩

theorem TreeBox.inBox {coords : List (Box K)} {b : Box K} (h : TreeBox coords b) {c : Box K} (hc : c ∈ coords)
    {p : Pt K} (hp : InBox c p) : InBox b p := by
  obtain ⟨h1, h2, h3, h4⟩ := h.contains c hc
  obtain ⟨p1, p2, p3, p4⟩ := hp
  exact ⟨h1.trans p1, p2.trans h2, h3.trans p3, p4.trans h4⟩

theorem TreeBox.nonempty {coords : List (Box K)} {b : Box K} (h : TreeBox coords b)
    (hn : ∀ c ∈ coords, c.Nonempty) : b.Nonempty := by
  obtain ⟨c, hc, _⟩ := h.left
  obtain ⟨h1, h2, h3, h4⟩ := h.contains c hc
  have := hn c hc
  exact ⟨(h1.trans this.x).trans h2, (h3.trans this.y).trans h4⟩

/-- The tolerance used for a face with the given bounding box. -/
def faceTol (env : Env K) (b : Box K) : K := max env.minTol (env.tolFactor * max (b.xmax - b.xmin) (b.ymax - b.ymin))

theorem toIsect_eq_true {r : Clip K} {cd : Option (Pt K) × Option (Pt K)} :
    Clip.toIsect r = (true, cd) ↔ ∃ c d, r = some (c, d) ∧ cd = (some c, some d) := by
  match r with
  | none => simp [Clip.toIsect]
  | some (c, d) =>
    simp only [Clip.toIsect, Prod.mk.injEq, true_and, Option.some.injEq]
    constructor
    · intro h; exact ⟨c, d, ⟨rfl, rfl⟩, h.symm⟩
    · rintro ⟨_, _, ⟨rfl, rfl⟩, h⟩; exact h.symm

section
variable {env : Env K} {vertices : List (Pt K)} {faces : IntArr} {fill : Int} {nb cpl : Nat} {t : CellTree K} {bt : BT}

theorem Constructed.box_nonempty (hc : Constructed env vertices faces fill nb cpl t bt) :
    ∀ c ∈ t.data.bbCoords, c.Nonempty := by
  intro c hc'
  obtain ⟨i, r, hi, hi'⟩ := mem_of_getElem?_corr hc.boxes.length hc'
  obtain ⟨b', c1, c2⟩ := hc.boxes.box i r hi
  rw [hi'] at c1
  cases c1
  exact c2.nonempty

/-- The test for one face. -/
theorem edgeFaceIntersect_spec (hc : Constructed env vertices faces fill nb cpl t bt) (hcol : faces.ncol ≤ maxNVertex)
    {j : Nat} {r : List Int} (hj : faces.rows[j]? = some r) (a b : Pt K) :
    ∃ box, t.data.bbCoords[j]? = some box ∧ IsBBox (facePts vertices fill r) box ∧
      ∃ clip res, cyrusBeck a b (storedPts vertices fill faces.ncol r) (faceTol env box) = .ok clip ∧
        edgeFaceIntersect env t.data a b j = .ok res ∧
        ∀ cd, res = (true, cd) ↔ SharesPiece a b (InBox box) ∧ ∃ c d, clip = some (c, d) ∧ cd = (some c, some d) := by
  obtain ⟨box, hb, hb'⟩ := hc.boxes.box j r hj
  obtain ⟨h1, h2, h3⟩ := hc.elements.polygon hcol hj
  have hne : storedPts vertices fill faces.ncol r ≠ [] := by intro e; rw [e] at h3; simp at h3
  obtain ⟨clip, hclip⟩ := cyrusBeck_total a b hne (faceTol env box)
  obtain ⟨s, hs, hs'⟩ := cohenSutherland_isSome hb'.nonempty a b
  refine ⟨box, hb, hb', clip, ?_⟩
  unfold edgeFaceIntersect
  rw [rd_of_some hb, ok_bind, hs, ok_bind]
  cases s with
  | none =>
    refine ⟨_, hclip, rfl, ?_⟩
    intro cd
    refine ⟨fun h => ?_, fun h => ?_⟩
    · have := congrArg Prod.fst h; simp at this
    · have := hs'.2 h.1; simp at this
  | some _ =>
    have hp := hs'.1 rfl
    obtain ⟨B, e1, _⟩ := hc.elements.row j r hj
    rw [rd_of_some e1, ok_bind] at h1
    simp only
    rw [rd_of_some e1, ok_bind, hc.vertices_eq, h1, ok_bind, fmax_eq, fmax_eq,
      show max env.minTol (env.tolFactor * max (box.xmax - box.xmin) (box.ymax - box.ymin)) = faceTol env box from rfl,
      hclip, ok_bind]
    refine ⟨_, rfl, rfl, ?_⟩
    intro cd
    rw [toIsect_eq_true]
    exact ⟨fun h => ⟨hp, h⟩, fun h => h.2⟩

theorem faceEdgeTotal (hc : Constructed env vertices faces fill nb cpl t bt) (hcol : faces.ncol ≤ maxNVertex)
    (a b : Pt K) : EdgeTotal t.data (edgeFaceIntersect env t.data) a b where
  box := by
    obtain ⟨r, h, _⟩ := cohenSutherland_isSome (hc.bbox.nonempty hc.box_nonempty) a b
    exact ⟨r, h⟩
  sides := by
    intro nd _ _
    obtain ⟨l, r, h, _⟩ := edgeSides_exact nd a b
    exact ⟨(l, r), h⟩
  isect := by
    intro j hj
    rw [hc.boxes.length] at hj
    obtain ⟨_, _, _, clip, res, _, h, _⟩ := edgeFaceIntersect_spec hc hcol (List.getElem?_eq_getElem hj) a b
    exact ⟨res, h⟩

theorem mem_faceEdgeHits (hc : Constructed env vertices faces fill nb cpl t bt) (hcol : faces.ncol ≤ maxNVertex)
    {a b : Pt K} {j : Nat} {cd : Option (Pt K) × Option (Pt K)} :
    (j, cd) ∈ edgeHits t.data bt (edgeFaceIntersect env t.data) (a, b) ↔
      ∃ r box, faces.rows[j]? = some r ∧ IsBBox (facePts vertices fill r) box ∧ SharesPiece a b (InBox box) ∧
        ∃ c d, cd = (some c, some d) ∧
          cyrusBeck a b (storedPts vertices fill faces.ncol r) (faceTol env box) = .ok (some (c, d)) := by
  constructor
  · intro h
    obtain ⟨h1, h2, _⟩ := edgeHits_sound hc.tree h
    simp only at h1 h2
    rw [hc.boxes.length] at h1
    obtain ⟨box, e1, e2, clip, res, e3, e4, e5⟩ := edgeFaceIntersect_spec hc hcol (List.getElem?_eq_getElem h1) a b
    rw [h2] at e4
    obtain ⟨g1, c, d, g2, g3⟩ := (e5 cd).1 (Except.ok.inj e4).symm
    exact ⟨_, box, List.getElem?_eq_getElem h1, e2, g1, c, d, g3, g2 ▸ e3⟩
  · rintro ⟨r, box', hr, hb', hp, c, d, hcd, hcb⟩
    obtain ⟨box, e1, e2, clip, res, e3, e4, e5⟩ := edgeFaceIntersect_spec hc hcol hr a b
    have hbox : box' = box := hb'.unique e2
    subst hbox
    rw [hcb] at e3
    have hres := (e5 cd).2 ⟨hp, c, d, (Except.ok.inj e3).symm, hcd⟩
    have hmem := List.mem_of_getElem? e1
    refine edgeHits_complete hc.tree e1 (by rw [e4, hres]) ?_ ?_ ?_
    · obtain ⟨s, hs, hs'⟩ := cohenSutherland_isSome (hc.bbox.nonempty hc.box_nonempty) a b
      have := hs'.2 (hp.mono fun p hp => hc.bbox.inBox hmem hp)
      obtain ⟨x, hx⟩ := Option.isSome_iff_exists.1 this
      exact ⟨x, by rw [← hx]; exact hs⟩
    · intro nd _
      obtain ⟨_, u, v, u0, uv, v1, hu, _⟩ := hp
      exact (edge_goes_down u0 (by linarith) hu nd).1
    · intro nd _
      obtain ⟨_, u, v, u0, uv, v1, hu, _⟩ := hp
      exact (edge_goes_down u0 (by linarith) hu nd).2

end

/-! ## Strictly convex faces -/

section
variable {vertices : List (Pt K)} {faces : IntArr} {fill : Int} {ncol : Nat} {r : List Int}

theorem storedPts_eq {F : Type} [Add F] [Sub F] [Mul F] [Div F] [Neg F] [Zero F] [One F] [IntCast F]
    [LT F] [LE F] [BEq F] [DecidableLT F] [DecidableLE F] {vertices : List (Pt F)} {B : List Int}
    (hB : Row vertices.length ncol B)
    (h : ccwFace vertices (padRow ncol (rowIndices fill r)) = .ok (padRow ncol B)) :
    storedPts vertices fill ncol r = ptsOf vertices B := by
  unfold storedPts
  rw [h]
  unfold facePts
  simp only
  rw [hB.rowIndices]
  rfl

theorem storedPts_convex (hr : Row vertices.length ncol (rowIndices fill r)) (h : ConvexPoly (facePts vertices fill r)) :
    storedPts vertices fill ncol r = facePts vertices fill r := by
  rw [storedPts_eq hr (ccwFace_convex hr h)]
  rfl

theorem storedPts_clockwise (hr : Row vertices.length ncol (rowIndices fill r))
    (h : StrictlyConvex (facePts vertices fill r).reverse) :
    storedPts vertices fill ncol r = (facePts vertices fill r).reverse := by
  have hconv : ConvexPoly (facePts vertices fill r).reverse := by
    refine ⟨fun a b c hs => (h.turn a b c hs).le, ?_⟩
    have := h.length
    generalize (facePts vertices fill r).reverse = l at *
    match l, h with
    | a :: b :: c :: l, h => exact ⟨a, b, c, by simp, h.turn a b c (by simp)⟩
  rw [storedPts_eq hr.reverse (ccwFace_clockwise hr hconv ?_)]
  · rw [ptsOf_reverse]; rfl
  · intro a b c habc
    have hlen := (ptsOf_spec hr.range).1
    have h3 := hr.three
    change _ <:+: (facePts vertices fill r).drop _ ++ (facePts vertices fill r).take 1 at habc
    change (facePts vertices fill r).length = _ at hlen
    rw [← hlen] at habc h3
    generalize facePts vertices fill r = P at *
    have hP : (P.drop (P.length - 2) ++ P.take 1).length = 3 := by simp; omega
    have e := habc.eq_of_length (by rw [hP]; rfl)
    have h1 : [c, b, a].Sublist (P.take 1 ++ (P.drop (P.length - 2)).reverse) := by
      have := congrArg List.reverse e
      rw [List.reverse_append] at this
      simp only [List.reverse_cons, List.reverse_nil, List.nil_append, List.cons_append] at this
      rw [this]
      have : (P.take 1).reverse = P.take 1 := by cases P <;> simp
      rw [this]
    have hrot : StrictlyConvex ((P.drop 1 ++ P.take 1).reverse) := by
      apply h.rotated
      have : P.reverse = (P.drop 1).reverse ++ (P.take 1).reverse := by
        rw [← List.reverse_append, List.take_append_drop]
      rw [this, List.reverse_append]
      exact ⟨_, List.rotate_append_length_eq _ _⟩
    have h2 := hrot.turn c b a (by
      rw [List.reverse_append]
      refine h1.trans ?_
      have : (P.take 1).reverse = P.take 1 := by cases P <;> simp
      rw [this]
      apply List.Sublist.append (List.Sublist.refl _)
      apply List.Sublist.reverse
      have : P.drop (P.length - 2) = (P.drop 1).drop (P.length - 3) := by
        rw [List.drop_drop]; congr 1; omega
      rw [this]
      exact List.drop_sublist _ _)
    intro h0
    have : orient c b a = - orient a b c := by unfold orient; ring
    rw [this, h0] at h2
    simp at h2

end

/-- Corners are in the box, so is the polygon. -/
theorem InPoly.inBox {l : List (Pt K)} (hl : ConvexPoly l) {box : Box K} (hb : IsBBox l box) {p : Pt K}
    (hp : InPoly l p) : InBox box p := by
  have h1 : (⟨1, 0⟩ : Pt K).x ≠ 0 ∨ (⟨1, 0⟩ : Pt K).y ≠ 0 := Or.inl one_ne_zero
  have h2 : (⟨0, 1⟩ : Pt K).x ≠ 0 ∨ (⟨0, 1⟩ : Pt K).y ≠ 0 := Or.inr one_ne_zero
  obtain ⟨v1, m1, e1⟩ := hl.exists_le hp h1
  obtain ⟨v2, m2, e2⟩ := hl.exists_ge hp h1
  obtain ⟨v3, m3, e3⟩ := hl.exists_le hp h2
  obtain ⟨v4, m4, e4⟩ := hl.exists_ge hp h2
  simp only [along, one_mul, zero_mul, add_zero, zero_add] at e1 e2 e3 e4
  exact ⟨(hb.contains v1 m1).1.trans e1, e2.trans (hb.contains v2 m2).2.1, (hb.contains v3 m3).2.2.1.trans e3,
    e4.trans (hb.contains v4 m4).2.2.2⟩

end Celltree
