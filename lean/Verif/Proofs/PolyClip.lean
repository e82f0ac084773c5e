import Verif.Proofs.HalfPlaneSet
import Verif.Proofs.Area
import Verif.Model.Algorithms

/-!
# Clipping polygons by polygons: the code computes the intersection
-/

set_option linter.unusedSectionVars false
set_option linter.unusedSimpArgs false

namespace Celltree

section
variable {K : Type} [Field K] [LinearOrder K] [IsStrictOrderedRing K]

theorem shInside_eq (p r s : Pt K) : shInside p r ⟨s.x - r.x, s.y - r.y⟩ = decide (0 < orient r s p) := by
  unfold shInside
  rw [Bool.eq_iff_iff, decide_eq_true_iff, decide_eq_true_iff]
  unfold orient
  constructor <;> intro h <;> simp only [gt_iff_lt] at * <;> linarith

theorem shIntersection_eq {a b r s : Pt K} (h : Opp r s a b) :
    shIntersection a ⟨b.x - a.x, b.y - a.y⟩ r ⟨-(s.y - r.y), s.x - r.x⟩ = .ok (some (cutPoint r s a b)) := by
  have hne : orient r s b - orient r s a ≠ 0 := by
    rcases h with ⟨h1, h2⟩ | ⟨h1, h2⟩ <;> intro h0 <;> linarith
  have e1 : dot (⟨-(s.y - r.y), s.x - r.x⟩ : Pt K) ⟨b.x - a.x, b.y - a.y⟩ = orient r s b - orient r s a := by
    unfold dot orient; ring
  have e2 : dot (⟨-(s.y - r.y), s.x - r.x⟩ : Pt K) ⟨r.x - a.x, r.y - a.y⟩ = - orient r s a := by
    unfold dot orient; ring
  unfold shIntersection
  simp only [e1, e2]
  rw [if_pos (by simpa using hne), fdiv_eq hne]
  rfl

theorem pushPoint_ok {out : List (Pt K)} {p : Pt K} (h : out.length < clipMaxNVertex) : pushPoint out p = .ok (out ++ [p]) := by
  unfold pushPoint; rw [if_pos h]

theorem zero_vec_iff (a b : Pt K) : ((b.x - a.x == 0) && (b.y - a.y == 0)) = decide (a = b) := by
  rw [Bool.eq_iff_iff, decide_eq_true_iff, Bool.and_eq_true, beq_iff_eq, beq_iff_eq]
  constructor
  · rintro ⟨h1, h2⟩; exact Pt.ext' (by linarith) (by linarith)
  · rintro rfl; simp

/-- The inner loop computes the clipped polygon. -/
theorem shClipLoop_eq (r s a : Pt K) (l out : List (Pt K)) (h : out.length + (clipGo r s a l).length ≤ clipMaxNVertex) :
    shClipLoop r ⟨s.x - r.x, s.y - r.y⟩ ⟨-(s.y - r.y), s.x - r.x⟩ a (decide (0 < orient r s a)) l out =
      .ok (out ++ clipGo r s a l) := by
  induction l generalizing a out with
  | nil => simp [shClipLoop, clipGo]
  | cons b l ih =>
    unfold shClipLoop
    simp only [zero_vec_iff, decide_eq_true_eq, shInside_eq]
    by_cases hab : a = b
    · subst hab
      have e : clipGo r s a (a :: l) = clipGo r s a l := by simp [clipGo]
      rw [e] at h ⊢
      rw [if_pos rfl]
      exact ih a out h
    rw [if_neg hab]
    by_cases hb : 0 < orient r s b
    · have hd := decide_eq_true hb
      rw [if_pos hb]
      by_cases ha : 0 < orient r s a
      · have e : clipGo r s a (b :: l) = b :: clipGo r s b l := by simp [clipGo, hab, hb, ha]
        rw [e] at h ⊢
        rw [List.length_cons] at h
        have hp := ih b (out ++ [b]) (by rw [List.length_append, List.length_singleton]; omega)
        rw [hd] at hp
        simp only [ha, decide_true, Bool.not_true, Bool.false_eq_true, if_false]
        change (pushPoint out b >>= fun out => shClipLoop _ _ _ b true l out) = _
        rw [pushPoint_ok (by omega)]
        change shClipLoop _ _ _ b true l (out ++ [b]) = _
        rw [hp]; simp
      · have e : clipGo r s a (b :: l) = cutPoint r s a b :: b :: clipGo r s b l := by simp [clipGo, hab, hb, ha]
        rw [e] at h ⊢
        rw [List.length_cons, List.length_cons] at h
        have hp := ih b (out ++ [cutPoint r s a b] ++ [b]) (by simp; omega)
        rw [hd] at hp
        simp only [ha, decide_false, Bool.not_false, if_true, shIntersection_eq (Or.inl ⟨not_lt.1 ha, hb⟩ : Opp r s a b)]
        change (pushPoint out (cutPoint r s a b) >>= fun out => pushPoint out b >>= fun out => shClipLoop _ _ _ b true l out) = _
        rw [pushPoint_ok (by omega)]
        change (pushPoint (out ++ [cutPoint r s a b]) b >>= fun out => shClipLoop _ _ _ b true l out) = _
        rw [pushPoint_ok (by simp; omega)]
        change shClipLoop _ _ _ b true l _ = _
        rw [hp]; simp
    · have hd := decide_eq_false hb
      rw [if_neg hb]
      by_cases ha : 0 < orient r s a
      · have e : clipGo r s a (b :: l) = cutPoint r s a b :: clipGo r s b l := by simp [clipGo, hab, hb, ha]
        rw [e] at h ⊢
        rw [List.length_cons] at h
        have hp := ih b (out ++ [cutPoint r s a b]) (by simp; omega)
        rw [hd] at hp
        rw [if_pos ha, shIntersection_eq (Or.inr ⟨ha, not_lt.1 hb⟩ : Opp r s a b)]
        change (pushPoint out (cutPoint r s a b) >>= fun out => shClipLoop _ _ _ b false l out) = _
        rw [pushPoint_ok (by omega)]
        change shClipLoop _ _ _ b false l _ = _
        rw [hp]; simp
      · have e : clipGo r s a (b :: l) = clipGo r s b l := by simp [clipGo, hab, hb, ha]
        rw [e] at h ⊢
        have hp := ih b out h
        rw [hd] at hp
        rw [if_neg ha]
        exact hp

/-- One round of the outer loop. -/
theorem shOuterLoop_step {r s : Pt K} {rest l : List (Pt K)} (h : ConvexPoly l) (hl : l.length < clipMaxNVertex)
    (hrs : r ≠ s) : shOuterLoop r (s :: rest) l =
      if (clipHalf r s l).length < 3 then .ok none else shOuterLoop s rest (clipHalf r s l) := by
  have hne := h.ne_nil
  have hlen := clipHalf_length (r := r) (s := s) h
  rw [clipHalf_eq hne] at hlen ⊢
  conv => lhs; unfold shOuterLoop
  simp only [zero_vec_iff, decide_eq_true_eq]
  rw [if_neg hrs, rdI_length_sub_one hne]
  change (shClipLoop _ _ _ (l.getLast hne) (shInside (l.getLast hne) r _) l [] >>= fun out =>
    if out.length < 3 then .ok none else shOuterLoop s rest out) = _
  rw [shInside_eq, shClipLoop_eq r s _ l [] (by simp; omega)]
  rfl

/-- What the outer loop returns. -/
theorem shOuterLoop_spec (S : List (Pt K)) (r : Pt K) (l : List (Pt K)) (h : ConvexPoly l)
    (hl : l.length + S.length ≤ clipMaxNVertex) :
    (∃ out, shOuterLoop r S l = .ok (some out) ∧ ConvexPoly out ∧ out.length ≤ l.length + S.length ∧
      ∀ p, InPoly out p ↔ InPoly l p ∧ ∀ q ∈ pairs (r :: S), 0 ≤ orient q.1 q.2 p) ∨
    (shOuterLoop r S l = .ok none ∧ ∃ q ∈ pairs (r :: S), q.1 ≠ q.2 ∧
      ∀ p, InPoly l p → (∀ q ∈ pairs (r :: S), 0 ≤ orient q.1 q.2 p) → orient q.1 q.2 p = 0) := by
  induction S generalizing r l with
  | nil => exact Or.inl ⟨l, rfl, h, by simp, fun p => by simp⟩
  | cons s S ih =>
    rw [List.length_cons] at hl
    by_cases hrs : r = s
    · subst hrs
      have e : shOuterLoop r (r :: S) l = shOuterLoop r S l := by
        conv => lhs; unfold shOuterLoop
        simp
      rw [e]
      have hS : ∀ p, (∀ q ∈ pairs (r :: r :: S), 0 ≤ orient q.1 q.2 p) ↔ ∀ q ∈ pairs (r :: S), 0 ≤ orient q.1 q.2 p := by
        intro p
        rw [pairs_cons_cons]
        simp only [List.mem_cons, forall_eq_or_imp]
        rw [orient_same]
        simp
      rcases ih r l h (by omega) with ⟨out, h1, h2, h3, h4⟩ | ⟨h1, q, hq, h2, h3⟩
      · exact Or.inl ⟨out, h1, h2, by rw [List.length_cons]; omega, fun p => by rw [h4, hS]⟩
      · exact Or.inr ⟨h1, q, by rw [pairs_cons_cons]; exact List.mem_cons_of_mem _ hq, h2, fun p hp hh => h3 p hp ((hS p).1 hh)⟩
    · rw [shOuterLoop_step h (by omega) hrs]
      by_cases hw : ∃ w ∈ l, 0 < orient r s w
      · obtain ⟨w, hw, hpos⟩ := hw
        have hc := clipHalf_convex h hw hpos
        have hlen := clipHalf_length (r := r) (s := s) h
        have hin := clipHalf_inPoly h hw hpos
        rw [if_neg (by have := hc.length; omega)]
        rcases ih s _ hc (by omega) with ⟨out, h1, h2, h3, h4⟩ | ⟨h1, q, hq, h2, h3⟩
        · refine Or.inl ⟨out, h1, h2, by rw [List.length_cons]; omega, fun p => ?_⟩
          rw [h4, hin, pairs_cons_cons]
          simp only [List.mem_cons, forall_eq_or_imp]
          tauto
        · refine Or.inr ⟨h1, q, by rw [pairs_cons_cons]; exact List.mem_cons_of_mem _ hq, h2, fun p hp hh => ?_⟩
          rw [pairs_cons_cons] at hh
          simp only [List.mem_cons, forall_eq_or_imp] at hh
          exact h3 p ((hin p).2 ⟨hp, hh.1⟩) hh.2
      · push Not at hw
        rw [clipHalf_nil hw]
        refine Or.inr ⟨by simp, (r, s), by simp, hrs, fun p hp hh => ?_⟩
        exact le_antisymm (h.hull_neg hp hw) (hh (r, s) (by simp))

/-- The clipped polygon: the intersection, or nothing if the intersection is on a line. -/
theorem polygonPolygonClip_spec {l clipper : List (Pt K)} (h : ConvexPoly l) (hne : clipper ≠ [])
    (hl : l.length + clipper.length ≤ clipMaxNVertex) :
    (∃ out, polygonPolygonClip l clipper = .ok (some out) ∧ ConvexPoly out ∧ out.length ≤ l.length + clipper.length ∧
      ∀ p, InPoly out p ↔ InPoly l p ∧ InPoly clipper p) ∨
    (polygonPolygonClip l clipper = .ok none ∧ ∃ q ∈ sides clipper, q.1 ≠ q.2 ∧
      ∀ p, InPoly l p → InPoly clipper p → orient q.1 q.2 p = 0) := by
  have e : polygonPolygonClip l clipper = shOuterLoop (clipper.getLast hne) clipper l := by
    unfold polygonPolygonClip
    rw [if_neg (by omega), rdI_length_sub_one hne]
    rfl
  have hs : ∀ p, InPoly clipper p ↔ ∀ q ∈ pairs (clipper.getLast hne :: clipper), 0 ≤ orient q.1 q.2 p := by
    intro p
    unfold InPoly
    constructor
    · exact fun hh q hq => hh q ((mem_sides_pairs hne).2 hq)
    · exact fun hh q hq => hh q ((mem_sides_pairs hne).1 hq)
  rw [e]
  rcases shOuterLoop_spec clipper (clipper.getLast hne) l h hl with ⟨out, h1, h2, h3, h4⟩ | ⟨h1, q, hq, h2, h3⟩
  · exact Or.inl ⟨out, h1, h2, h3, fun p => by rw [h4, hs]⟩
  · exact Or.inr ⟨h1, q, (mem_sides_pairs hne).2 hq, h2, fun p hp hh => h3 p hp ((hs p).1 hh)⟩

end
end Celltree
