import Verif.Spec.Area
import Verif.Spec.Exact
import Verif.Model.Geom
import Verif.Proofs.ConvexPoint
import Verif.Proofs.Midpoint

/-!
# Area of convex polygons: fans and the shoelace formula
-/

set_option linter.unusedSectionVars false

namespace Celltree

section
variable {K : Type} [Field K] [LinearOrder K] [IsStrictOrderedRing K]

/-- Twice the area of the fan of triangles with top `a`. -/
def fan2 (a : Pt K) (l : List (Pt K)) : K := ((pairs l).map fun s => orient a s.1 s.2).sum

theorem fan2_cons (a b c : Pt K) (l : List (Pt K)) : fan2 a (b :: c :: l) = orient a b c + fan2 a (c :: l) := by
  simp [fan2]

theorem shoelace_pairs (a b : Pt K) (l : List (Pt K)) (z : Pt K) :
    ((pairs (b :: l ++ [z])).map fun s => s.1.x * s.2.y - s.1.y * s.2.x).sum =
      fan2 a (b :: l ++ [z]) + (a.x * (z.y - b.y) - a.y * (z.x - b.x)) := by
  induction l generalizing b with
  | nil => simp [fan2, orient]; ring
  | cons c l ih =>
    have := ih c
    simp only [List.cons_append, pairs_cons_cons, List.map_cons, List.sum_cons, fan2_cons] at this ⊢
    rw [this]
    unfold orient; ring

/-- The shoelace formula as a sum over the triangles with any top. -/
theorem shoelace_fan (a : Pt K) (l : List (Pt K)) :
    shoelace l = ((sides l).map fun s => orient a s.1 s.2).sum / 2 := by
  cases l with
  | nil => simp [shoelace, sides]
  | cons b l =>
    unfold shoelace sides
    rw [shoelace_pairs a b l b]
    simp [fan2]

theorem fan2_append (a b : Pt K) (l : List (Pt K)) : fan2 a (b :: l ++ [a]) = fan2 a (b :: l) := by
  induction l generalizing b with
  | nil => simp [fan2, orient]
  | cons c l ih =>
    have := ih c
    simp only [List.cons_append, fan2_cons] at this ⊢
    rw [this]

theorem shoelace_eq_fan2 (a : Pt K) (l : List (Pt K)) : shoelace (a :: l) = fan2 a l / 2 := by
  rw [shoelace_fan a]
  congr 1
  cases l with
  | nil => simp [sides, fan2, orient]
  | cons b l =>
    have := fan2_append a b l
    unfold fan2 at this ⊢
    rw [← this]
    simp [sides, orient]

theorem areaLoop_eq (a U : Pt K) (b : Pt K) (l : List (Pt K)) (acc : K) (hU : U = toVector a b ∨ U = toVector b a)
    (h : ∀ s ∈ pairs (b :: l), 0 ≤ orient a s.1 s.2) :
    polygonAreaLoop a U l acc = acc + fan2 a (b :: l) := by
  induction l generalizing b U acc with
  | nil => simp [polygonAreaLoop, fan2]
  | cons c l ih =>
    unfold polygonAreaLoop
    rw [ih _ c _ (Or.inr rfl) (fun s hs => h s (by rw [pairs_cons_cons]; exact List.mem_cons_of_mem _ hs)), fan2_cons]
    have h0 := h (b, c) (by simp)
    have : fabs (cross U (toVector c a)) = orient a b c := by
      rw [fabs_eq]
      have e : cross (toVector a b) (toVector c a) = - orient a b c := by unfold cross toVector orient; ring
      have e' : cross (toVector b a) (toVector c a) = orient a b c := by unfold cross toVector orient; ring
      rcases hU with rfl | rfl
      · rw [e, abs_neg, abs_of_nonneg h0]
      · rw [e', abs_of_nonneg h0]
    rw [this]; ring

theorem areaLoop_neg (a U : Pt K) (b : Pt K) (l : List (Pt K)) (acc : K) (hU : U = toVector a b ∨ U = toVector b a)
    (h : ∀ s ∈ pairs (b :: l), orient a s.1 s.2 ≤ 0) :
    polygonAreaLoop a U l acc = acc - fan2 a (b :: l) := by
  induction l generalizing b U acc with
  | nil => simp [polygonAreaLoop, fan2]
  | cons c l ih =>
    unfold polygonAreaLoop
    rw [ih _ c _ (Or.inr rfl) (fun s hs => h s (by rw [pairs_cons_cons]; exact List.mem_cons_of_mem _ hs)), fan2_cons]
    have h0 := h (b, c) (by simp)
    have : fabs (cross U (toVector c a)) = - orient a b c := by
      rw [fabs_eq]
      have e : cross (toVector a b) (toVector c a) = - orient a b c := by unfold cross toVector orient; ring
      have e' : cross (toVector b a) (toVector c a) = orient a b c := by unfold cross toVector orient; ring
      rcases hU with rfl | rfl
      · rw [e, abs_neg, abs_of_nonpos h0]
      · rw [e', abs_of_nonpos h0]
    rw [this]; ring

theorem pairs_sublist {α : Type} {l : List α} {s : α × α} (h : s ∈ pairs l) : List.Sublist [s.1, s.2] l := by
  obtain ⟨u, w, e⟩ := mem_pairs_split h
  rw [e]
  exact ((List.nil_sublist w).cons_cons _ |>.cons_cons _).trans (List.sublist_append_right _ _)

theorem shoelace_reverse (l : List (Pt K)) : shoelace l.reverse = - shoelace l := by
  unfold shoelace
  rw [((sides_reverse l).map _).sum_eq, List.map_map]
  rw [show ((fun s : Pt K × Pt K => s.1.x * s.2.y - s.1.y * s.2.x) ∘ Prod.swap) =
      fun s => - (s.1.x * s.2.y - s.1.y * s.2.x) from by funext s; simp; ring]
  have : ∀ L : List (Pt K × Pt K), (L.map fun s => - (s.1.x * s.2.y - s.1.y * s.2.x)).sum =
      - (L.map fun s => s.1.x * s.2.y - s.1.y * s.2.x).sum := by
    intro L
    induction L with
    | nil => simp
    | cons s L ih => simp only [List.map_cons, List.sum_cons, ih]; ring
  rw [this]; ring

theorem shoelace_rotated {l l' : List (Pt K)} (h : l ~r l') : shoelace l = shoelace l' := by
  unfold shoelace
  rw [((sides_isRotated h).map _).sum_eq]

theorem polygonArea_turn {l : List (Pt K)} (h : ∀ a b c, List.Sublist [a, b, c] l → 0 ≤ orient a b c) (h2 : 2 ≤ l.length) :
    polygonArea l = .ok (shoelace l) := by
  match l, h2 with
  | a :: b :: l, _ =>
    change Except.ok (half * polygonAreaLoop a (toVector a b) l 0) = _
    rw [areaLoop_eq a _ b l 0 (Or.inl rfl), shoelace_eq_fan2, half_eq]
    · congr 1; ring
    · intro s hs
      exact h _ _ _ ((pairs_sublist hs).cons_cons a)

theorem ConvexPoly.polygonArea {l : List (Pt K)} (h : ConvexPoly l) : polygonArea l = .ok (shoelace l) :=
  polygonArea_turn h.turn (by have := h.length; omega)

theorem ConvexPoly.polygonArea_reverse {l : List (Pt K)} (h : ConvexPoly l.reverse) :
    Celltree.polygonArea l = .ok (shoelace l.reverse) := by
  have hl := h.length
  rw [List.length_reverse] at hl
  match l, hl with
  | a :: b :: l, _ =>
    change Except.ok (half * polygonAreaLoop a (toVector a b) l 0) = _
    rw [areaLoop_neg a _ b l 0 (Or.inl rfl), shoelace_reverse, shoelace_eq_fan2, half_eq]
    · congr 1; ring
    · intro s hs
      have hsub := ((pairs_sublist hs).cons_cons a).reverse
      have := h.turn s.2 s.1 a (by simpa using hsub)
      have e : orient s.2 s.1 a = - orient a s.1 s.2 := by unfold orient; ring
      linarith

theorem fan2_nonneg {a : Pt K} {l : List (Pt K)} (h : ∀ s ∈ pairs l, 0 ≤ orient a s.1 s.2) : 0 ≤ fan2 a l := by
  unfold fan2
  apply List.sum_nonneg
  intro x hx
  obtain ⟨s, hs, rfl⟩ := List.mem_map.1 hx
  exact h s hs

end
end Celltree
