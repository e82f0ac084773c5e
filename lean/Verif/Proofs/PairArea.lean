import Verif.Proofs.PolyClip
import Verif.Proofs.Volume
import Verif.Proofs.FaceEdges
import Verif.Proofs.BoxPairs
import Verif.Spec.Faces

/-!
# Areas of intersection of pairs of faces
-/

set_option linter.unusedSectionVars false

namespace Celltree

section
variable {K : Type} [Field K] [LinearOrder K] [IsStrictOrderedRing K]

/-! ## Faces in either order -/

theorem inPoly_reverse {l : List (Pt K)} {p : Pt K} : InPoly l.reverse p ↔ ∀ s ∈ sides l, orient s.1 s.2 p ≤ 0 := by
  unfold InPoly
  constructor
  · intro h s hs
    have := h (s.2, s.1) ((sides_reverse l).mem_iff.2 (List.mem_map.2 ⟨s, hs, rfl⟩))
    rw [orient_swap'] at this
    linarith
  · intro h s hs
    obtain ⟨t, ht, rfl⟩ := List.mem_map.1 ((sides_reverse l).mem_iff.1 hs)
    have := h t ht
    simp only [Prod.fst_swap, Prod.snd_swap]
    rw [orient_swap']
    linarith

theorem ConvexPoly.not_inPoly_reverse {l : List (Pt K)} (h : ConvexPoly l) (p : Pt K) : ¬ InPoly l.reverse p := by
  intro hp
  rw [inPoly_reverse] at hp
  have h1 := h.shoelace_pos
  rw [shoelace_fan p] at h1
  have key : ∀ L : List (Pt K × Pt K), (∀ s ∈ L, orient s.1 s.2 p ≤ 0) → (L.map fun s => orient p s.1 s.2).sum ≤ 0 := by
    intro L
    induction L with
    | nil => simp
    | cons s L ih =>
      intro hL
      have h1 := hL s List.mem_cons_self
      rw [orient_rot p s.1 s.2] at h1
      have h2 := ih fun s hs => hL s (List.mem_cons_of_mem _ hs)
      rw [List.map_cons, List.sum_cons]
      linarith
  have := key _ hp
  linarith

theorem ConvexPoly.inFace {l : List (Pt K)} (h : ConvexPoly l) {p : Pt K} : InFace l p ↔ InPoly l p :=
  ⟨fun hh => hh.elim id fun h' => (h.not_inPoly_reverse p h').elim, Or.inl⟩

theorem inFace_reverse {l : List (Pt K)} {p : Pt K} : InFace l.reverse p ↔ InFace l p := by
  unfold InFace; rw [List.reverse_reverse]; exact Or.comm

theorem inFaceInterior_reverse {l : List (Pt K)} {p : Pt K} : InFaceInterior l.reverse p ↔ InFaceInterior l p := by
  unfold InFaceInterior; rw [List.reverse_reverse]; exact Or.comm

theorem ConvexPoly.not_reverse {l : List (Pt K)} (h : ConvexPoly l) : ¬ ConvexPoly l.reverse := fun h' => by
  have h1 := h.shoelace_pos
  have h2 := h'.shoelace_pos
  rw [shoelace_reverse] at h2
  linarith

theorem ConvexPoly.inFaceInterior {l : List (Pt K)} (h : ConvexPoly l) {p : Pt K} : InFaceInterior l p ↔ InInterior l p :=
  ⟨fun hh => hh.elim (·.2) fun h' => (h.not_reverse h'.1).elim, fun h' => Or.inl ⟨h, h'⟩⟩

theorem StrictlyConvex.convexFace {l : List (Pt K)} (h : StrictlyConvex l ∨ StrictlyConvex l.reverse) : ConvexFace l := by
  rcases h with h | h
  · exact Or.inl h.convex
  · refine Or.inr ⟨h.convex, ?_⟩
    have hl := h.length
    obtain ⟨c, l', rfl⟩ : ∃ c l', l = c :: l' := by
      match l, hl with
      | c :: l', _ => exact ⟨c, l', rfl⟩
    rcases List.eq_nil_or_concat l' with rfl | ⟨l2, b, rfl⟩
    · simp at hl
    rcases List.eq_nil_or_concat l2 with rfl | ⟨l3, a, rfl⟩
    · simp at hl
    refine ⟨l3, a, b, c, by simp, ?_⟩
    have := h.turn b a c (by simp)
    have e : orient b a c = - orient a b c := orient_swap' _ _ _
    intro h0
    rw [e, h0] at this
    simp at this

/-- How a convex face is stored. -/
theorem ConvexFace.stored {vertices : List (Pt K)} {ncol : Nat} {fill : Int} {r : List Int}
    (hrow : Row vertices.length ncol (rowIndices fill r)) (h : ConvexFace (facePts vertices fill r)) :
    ConvexPoly (storedPts vertices fill ncol r) ∧
      (storedPts vertices fill ncol r = facePts vertices fill r ∨
        storedPts vertices fill ncol r = (facePts vertices fill r).reverse) := by
  rcases h with h | ⟨h, l, a, b, c, hl, ho⟩
  · rw [storedPts_convex hrow h]; exact ⟨h, Or.inl rfl⟩
  · have : storedPts vertices fill ncol r = (facePts vertices fill r).reverse := by
      rw [storedPts_eq hrow.reverse (ccwFace_clockwise hrow h ?_), ptsOf_reverse]
      · rfl
      · intro x y z hxyz
        have hlen := (ptsOf_spec hrow.range).1
        change _ <:+: (facePts vertices fill r).drop _ ++ (facePts vertices fill r).take 1 at hxyz
        change (facePts vertices fill r).length = _ at hlen
        rw [← hlen, hl] at hxyz
        have : (c :: l ++ [a, b]).drop ((c :: l ++ [a, b]).length - 2) ++ (c :: l ++ [a, b]).take 1 = [a, b, c] := by
          simp
        rw [this] at hxyz
        have := hxyz.eq_of_length rfl
        simp only [List.cons.injEq, and_true] at this
        obtain ⟨rfl, rfl, rfl⟩ := this
        exact ho
    rw [this]; exact ⟨h, Or.inr rfl⟩

theorem ConvexFace.inFace {vertices : List (Pt K)} {ncol : Nat} {fill : Int} {r : List Int}
    (hrow : Row vertices.length ncol (rowIndices fill r)) (h : ConvexFace (facePts vertices fill r)) (p : Pt K) :
    InPoly (storedPts vertices fill ncol r) p ↔ InFace (facePts vertices fill r) p := by
  obtain ⟨h1, h2⟩ := h.stored hrow
  rw [← h1.inFace]
  rcases h2 with h2 | h2 <;> rw [h2]
  exact inFace_reverse

theorem ConvexFace.inFaceInterior {vertices : List (Pt K)} {ncol : Nat} {fill : Int} {r : List Int}
    (hrow : Row vertices.length ncol (rowIndices fill r)) (h : ConvexFace (facePts vertices fill r)) (p : Pt K) :
    InInterior (storedPts vertices fill ncol r) p ↔ InFaceInterior (facePts vertices fill r) p := by
  obtain ⟨h1, h2⟩ := h.stored hrow
  rw [← h1.inFaceInterior]
  rcases h2 with h2 | h2 <;> rw [h2]
  exact inFaceInterior_reverse

/-! ## Boxes as polygons -/

theorem boxPoly_convex {b : Box K} (hx : b.xmin < b.xmax) (hy : b.ymin < b.ymax) : ConvexPoly (copyBoxVertices b) := by
  unfold copyBoxVertices
  have hp := mul_pos (sub_pos.2 hx) (sub_pos.2 hy)
  refine ⟨fun x y z hs => ?_, ⟨⟨b.xmin, b.ymin⟩, ⟨b.xmax, b.ymin⟩, ⟨b.xmax, b.ymax⟩, by simp, ?_⟩⟩
  · have : [x, y, z] ∈ List.sublists [(⟨b.xmin, b.ymin⟩ : Pt K), ⟨b.xmax, b.ymin⟩, ⟨b.xmax, b.ymax⟩, ⟨b.xmin, b.ymax⟩] :=
      List.mem_sublists.2 hs
    simp [List.sublists, List.cons.injEq] at this
    rcases this with ⟨rfl, rfl, rfl⟩ | ⟨rfl, rfl, rfl⟩ | ⟨rfl, rfl, rfl⟩ | ⟨rfl, rfl, rfl⟩ <;> simp only [orient] <;> nlinarith
  · simp only [orient]; linarith

theorem boxPoly_inPoly {b : Box K} (hx : b.xmin < b.xmax) (hy : b.ymin < b.ymax) (p : Pt K) :
    InPoly (copyBoxVertices b) p ↔ InBox b p := by
  have h1 := sub_pos.2 hx
  have h2 := sub_pos.2 hy
  unfold copyBoxVertices InPoly InBox
  simp only [sides, List.cons_append, List.nil_append, pairs_cons_cons, pairs_single, List.mem_cons, List.not_mem_nil,
    or_false, forall_eq_or_imp, forall_eq, orient, sub_self, zero_mul, sub_zero, zero_sub]
  constructor
  · rintro ⟨g1, g2, g3, g4⟩
    refine ⟨?_, ?_, ?_, ?_⟩
    · by_contra hh; push Not at hh
      have := mul_pos h2 (sub_pos.2 hh); nlinarith
    · by_contra hh; push Not at hh
      have := mul_pos h2 (sub_pos.2 hh); nlinarith
    · by_contra hh; push Not at hh
      have := mul_pos h1 (sub_pos.2 hh); nlinarith
    · by_contra hh; push Not at hh
      have := mul_pos h1 (sub_pos.2 hh); nlinarith
  · rintro ⟨g1, g2, g3, g4⟩
    have a1 := mul_nonneg h2.le (sub_nonneg.2 g1)
    have a2 := mul_nonneg h2.le (sub_nonneg.2 g2)
    have a3 := mul_nonneg h1.le (sub_nonneg.2 g3)
    have a4 := mul_nonneg h1.le (sub_nonneg.2 g4)
    refine ⟨by nlinarith, by nlinarith, by nlinarith, by nlinarith⟩

/-! ## The area of a pair -/

theorem polygonPolygonClipArea_spec {l clipper : List (Pt K)} (h : ConvexPoly l) (hne : clipper ≠ [])
    (hl : l.length + clipper.length ≤ clipMaxNVertex) :
    (∃ out, polygonPolygonClipArea l clipper = .ok (shoelace out) ∧ ConvexPoly out ∧
      ∀ p, InPoly out p ↔ InPoly l p ∧ InPoly clipper p) ∨
    (polygonPolygonClipArea l clipper = .ok 0 ∧ ∃ q ∈ sides clipper, q.1 ≠ q.2 ∧
      ∀ p, InPoly l p → InPoly clipper p → orient q.1 q.2 p = 0) := by
  unfold polygonPolygonClipArea
  rcases polygonPolygonClip_spec h hne hl with ⟨out, h1, h2, _, h4⟩ | ⟨h1, h2⟩
  · refine Or.inl ⟨out, ?_, h2, h4⟩
    rw [h1]
    exact h2.polygonArea
  · exact Or.inr ⟨by rw [h1]; rfl, h2⟩

/-- A convex polygon has a corner strictly on the left of, or a corner strictly on the right of, any line. -/
theorem ConvexPoly.corner_off {l : List (Pt K)} (h : ConvexPoly l) {a b : Pt K} (hab : a ≠ b) :
    ∃ v ∈ l, orient a b v ≠ 0 := by
  by_contra hno
  push Not at hno
  exact h.not_collinear hab hno

/-- Bounding boxes of polygons with a convex polygon in common overlap. -/
theorem overlap_of_common {out : List (Pt K)} (h : ConvexPoly out) {A B : List (Pt K)} (hA : ConvexPoly A)
    (hB : ConvexPoly B) (hsub : ∀ p ∈ out, InPoly A p ∧ InPoly B p) {d : Pt K} (hd : d.x ≠ 0 ∨ d.y ≠ 0) :
    ∃ v ∈ A, ∃ w ∈ B, along d v < along d w := by
  by_contra hno
  push Not at hno
  obtain ⟨w0, hw0⟩ := List.exists_mem_of_ne_nil _ h.ne_nil
  -- all corners are on one line
  have hle : ∀ p ∈ out, ∀ q ∈ out, along d p ≤ along d q := by
    intro p hp q hq
    obtain ⟨v, hv, h1⟩ := hA.exists_le (hsub q hq).1 hd
    obtain ⟨w, hw, h2⟩ := hB.exists_ge (hsub p hp).2 hd
    have := hno v hv w hw
    linarith
  have hne : w0 ≠ ⟨w0.x - d.y, w0.y + d.x⟩ := by
    intro e
    have hx := congrArg Pt.x e
    have hy := congrArg Pt.y e
    simp only at hx hy
    rcases hd with hd | hd
    · exact hd (by linarith)
    · exact hd (by linarith)
  apply h.not_collinear hne
  intro v hv
  have h1 := hle v hv w0 hw0
  have h2 := hle w0 hw0 v hv
  unfold along at h1 h2
  unfold orient
  simp only
  linear_combination (le_antisymm h2 h1 : d.x * w0.x + d.y * w0.y = d.x * v.x + d.y * v.y)

/-- … so the interiors of two polygons with a flat intersection do not overlap: there is no convex polygon in both. -/
theorem flat_no_common {out : List (Pt K)} (h : ConvexPoly out) {A B : List (Pt K)}
    (hflat : ∃ q ∈ sides B, q.1 ≠ q.2 ∧ ∀ p, InPoly A p → InPoly B p → orient q.1 q.2 p = 0)
    (hsub : ∀ p ∈ out, InPoly A p ∧ InPoly B p) : False := by
  obtain ⟨q, _, hq, hz⟩ := hflat
  exact h.not_collinear hq fun v hv => hz v (hsub v hv).1 (hsub v hv).2

/-! ## Masks -/

theorem applyMask_map {α β : Type} (L : List α) (p : α → Bool) (f : α → β) :
    applyMask (L.map p) (L.map f) = (L.filter p).map f := by
  unfold applyMask
  induction L with
  | nil => rfl
  | cons a L ih =>
    simp only [List.map_cons, List.zip_cons_cons, List.filter_cons]
    cases p a <;> simp_all

/-- A parallel loop over a list of pairs. -/
theorem prange_pairs {β : Type} {L : List (Nat × Nat)} {sched : List Nat} (hs : sched.Perm (List.range L.length)) (init : β)
    {body : Nat → M β} {f : Nat × Nat → β} (hb : ∀ i x, L[i]? = some x → body i = .ok (f x)) :
    prange sched L.length init body = .ok (L.map f) := by
  have h := prange_ok hs init (body := body) (f := fun i => f ((L[i]?).getD (0, 0))) (fun i hi => by
    rw [hb i L[i] (by simp [hi])]; simp [hi])
  rw [h]
  congr 1
  apply List.ext_getElem?
  intro i
  by_cases hi : i < L.length
  · simp [hi]
  · simp [hi]

end

/-! ## Measure -/

theorem areaOf_congr {s t : Set (ℝ × ℝ)} (h : ∀ p, p ∈ s ↔ p ∈ t) : areaOf s = areaOf t := by
  rw [Set.ext h]

/-- Over the reals, the computed area is the Lebesgue measure of the intersection. -/
theorem clipArea_eq_measure {l clipper : List (Pt ℝ)} (h : ConvexPoly l) (hne : clipper ≠ [])
    (hl : l.length + clipper.length ≤ clipMaxNVertex) :
    polygonPolygonClipArea l clipper = .ok (areaOf (region l ∩ region clipper)) := by
  rcases polygonPolygonClipArea_spec h hne hl with ⟨out, h1, h2, h3⟩ | ⟨h1, q, _, hq, h2⟩
  · rw [h1, ← h2.areaOf_region]
    congr 1
    apply areaOf_congr
    intro p
    exact h3 _
  · rw [h1]
    congr 1
    unfold areaOf
    rw [MeasureTheory.measure_mono_null (t := {p : ℝ × ℝ | orient q.1 q.2 (toPt p) = 0}) ?_ (volume_line hq)]
    · rfl
    · rintro p ⟨hp1, hp2⟩
      exact h2 _ hp1 hp2

theorem ConvexPoly.finite_region {l : List (Pt ℝ)} (h : ConvexPoly l) : MeasureTheory.volume (region l) ≠ ⊤ := by
  rw [h.volume_region]; exact ENNReal.ofReal_ne_top

end Celltree
