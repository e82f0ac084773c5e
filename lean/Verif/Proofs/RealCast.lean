import Verif.Spec.FloatPolygons
import Verif.Proofs.PairArea

/-!
# Clipping with rational and with real coordinates
-/

namespace Celltree.Fl

theorem orient_real (a b c : Pt ℚ) : orient (realPt a) (realPt b) (realPt c) = ((orient a b c : ℚ) : ℝ) := by
  unfold orient realPt; push_cast; ring

theorem orient_real_pos {a b c : Pt ℚ} : 0 < orient (realPt a) (realPt b) (realPt c) ↔ 0 < orient a b c := by
  rw [orient_real]; exact_mod_cast Iff.rfl

theorem orient_real_nonneg {a b c : Pt ℚ} : 0 ≤ orient (realPt a) (realPt b) (realPt c) ↔ 0 ≤ orient a b c := by
  rw [orient_real]; exact_mod_cast Iff.rfl

theorem realPt_inj {a b : Pt ℚ} : realPt a = realPt b ↔ a = b := by
  constructor
  · intro h
    unfold realPt at h
    rw [Pt.mk.injEq] at h
    obtain ⟨h1, h2⟩ := h
    have h1 : a.x = b.x := by exact_mod_cast h1
    have h2 : a.y = b.y := by exact_mod_cast h2
    cases a; cases b
    simp only at h1 h2
    rw [h1, h2]
  · rintro rfl; rfl

theorem cutPoint_real (r s a b : Pt ℚ) : cutPoint (realPt r) (realPt s) (realPt a) (realPt b) = realPt (cutPoint r s a b) := by
  unfold cutPoint
  rw [orient_real, orient_real]
  unfold lineAt realPt
  push_cast
  rfl

theorem clipGo_real (r s a : Pt ℚ) (l : List (Pt ℚ)) :
    clipGo (realPt r) (realPt s) (realPt a) (l.map realPt) = (clipGo r s a l).map realPt := by
  induction l generalizing a with
  | nil => rfl
  | cons b l ih =>
    rw [List.map_cons, clipGo, clipGo]
    simp only [realPt_inj, orient_real_pos, ih, cutPoint_real]
    split_ifs <;> simp

theorem clipHalf_real (r s : Pt ℚ) (l : List (Pt ℚ)) :
    clipHalf (realPt r) (realPt s) (l.map realPt) = (clipHalf r s l).map realPt := by
  by_cases h : l = []
  · subst h; rfl
  · rw [clipHalf_eq h, clipHalf_eq (by simpa using h), List.getLast_map, clipGo_real]

theorem sublist_real {a b c : Pt ℝ} {l : List (Pt ℚ)} (h : List.Sublist [a, b, c] (l.map realPt)) :
    ∃ a' b' c', List.Sublist [a', b', c'] l ∧ a = realPt a' ∧ b = realPt b' ∧ c = realPt c' := by
  obtain ⟨k, hk, e⟩ := List.sublist_map_iff.1 h
  match k, e with
  | [a', b', c'], e =>
    simp only [List.map_cons, List.map_nil, List.cons.injEq, and_true] at e
    exact ⟨a', b', c', hk, e⟩

theorem convex_real {l : List (Pt ℚ)} (h : ConvexPoly l) : ConvexPoly (l.map realPt) := by
  refine ⟨fun a b c hs => ?_, ?_⟩
  · obtain ⟨a', b', c', h1, rfl, rfl, rfl⟩ := sublist_real hs
    exact orient_real_nonneg.2 (h.turn _ _ _ h1)
  · obtain ⟨a, b, c, h1, h2⟩ := h.nondeg
    exact ⟨_, _, _, h1.map realPt, orient_real_pos.2 h2⟩

theorem shoelace_real (l : List (Pt ℚ)) : shoelace (l.map realPt) = ((shoelace l : ℚ) : ℝ) := by
  rcases l with _ | ⟨a, l⟩
  · simp [shoelace, sides]
  · rw [List.map_cons, shoelace_eq_fan2, shoelace_eq_fan2]
    have : ∀ l : List (Pt ℚ), fan2 (realPt a) (l.map realPt) = ((fan2 a l : ℚ) : ℝ) := by
      intro l
      induction l with
      | nil => simp [fan2]
      | cons b l ih =>
        cases l with
        | nil => simp [fan2]
        | cons c l =>
          rw [List.map_cons, List.map_cons] at *
          simp only [fan2] at *
          rw [pairs_cons_cons, pairs_cons_cons, List.map_cons, List.map_cons, List.sum_cons, List.sum_cons, ih, orient_real]
          push_cast; rfl
    rw [this]; push_cast; rfl

/-- The clipped polygon with real coordinates. -/
theorem outer_real (S : List (Pt ℚ)) (r : Pt ℚ) (l : List (Pt ℚ)) (h : ConvexPoly l)
    (hl : l.length + S.length ≤ clipMaxNVertex) :
    (∃ out, shOuterLoop r S l = .ok (some out) ∧ shOuterLoop (realPt r) (S.map realPt) (l.map realPt) = .ok (some (out.map realPt))) ∨
    (shOuterLoop r S l = .ok none ∧ shOuterLoop (realPt r) (S.map realPt) (l.map realPt) = .ok none) := by
  induction S generalizing r l with
  | nil => exact Or.inl ⟨l, rfl, rfl⟩
  | cons s S ih =>
    rw [List.length_cons] at hl
    by_cases hrs : r = s
    · subst hrs
      have e : shOuterLoop r (r :: S) l = shOuterLoop r S l := by
        conv => lhs; unfold shOuterLoop
        simp
      have e' : shOuterLoop (realPt r) (realPt r :: S.map realPt) (l.map realPt) = shOuterLoop (realPt r) (S.map realPt) (l.map realPt) := by
        conv => lhs; unfold shOuterLoop
        simp
      rw [List.map_cons, e, e']
      exact ih r l h (by omega)
    · rw [List.map_cons, shOuterLoop_step h (by omega) hrs,
        shOuterLoop_step (convex_real h) (by rw [List.length_map]; omega) (fun e => hrs (realPt_inj.1 e)), clipHalf_real, List.length_map]
      by_cases hw : ∃ w ∈ l, 0 < orient r s w
      · obtain ⟨w, hw, hpos⟩ := hw
        have hc := clipHalf_convex h hw hpos
        have hlen := clipHalf_length (r := r) (s := s) h
        rw [if_neg (by have := hc.length; omega), if_neg (by have := hc.length; omega)]
        exact ih s _ hc (by omega)
      · push Not at hw
        rw [clipHalf_nil hw]
        exact Or.inr ⟨by simp, by simp⟩

/-- The exact area of the clipping is the area of what the polygons have in common. -/
theorem clipArea_real {l c : List (Pt ℚ)} (h : ConvexPoly l) (hc : ConvexPoly c) (hl : l.length + c.length ≤ clipMaxNVertex) {A : ℚ}
    (hA : polygonPolygonClipArea l c = .ok A) : (A : ℝ) = commonArea l c := by
  have hne := hc.ne_nil
  have hne' : c.map realPt ≠ [] := by simpa using hne
  have m := clipArea_eq_measure (convex_real h) hne' (by simpa using hl)
  have e1 : polygonPolygonClip l c = shOuterLoop (c.getLast hne) c l := by
    unfold polygonPolygonClip
    rw [if_neg (by omega), rdI_length_sub_one hne]
    rfl
  have e2 : polygonPolygonClip (l.map realPt) (c.map realPt) = shOuterLoop (realPt (c.getLast hne)) (c.map realPt) (l.map realPt) := by
    unfold polygonPolygonClip
    rw [if_neg (by rw [List.length_map]; omega), rdI_length_sub_one hne', List.getLast_map]
    rfl
  have key : polygonPolygonClipArea (l.map realPt) (c.map realPt) = .ok (A : ℝ) := by
    unfold polygonPolygonClipArea at hA ⊢
    rw [e1] at hA
    rw [e2]
    rcases outer_real c (c.getLast hne) l h hl with ⟨out, h1, h2⟩ | ⟨h1, h2⟩
    · have hout : ConvexPoly out := by
        rcases polygonPolygonClip_spec h hne hl with ⟨o, k1, k2, _⟩ | ⟨k1, _⟩
        · rw [e1, h1] at k1; cases k1; exact k2
        · rw [e1, h1] at k1; cases k1
      rw [h1, ok_bind] at hA
      rw [h2, ok_bind]
      simp only at hA ⊢
      rw [hout.polygonArea] at hA
      rw [(convex_real hout).polygonArea, shoelace_real, Except.ok.inj hA]
    · rw [h1, ok_bind] at hA
      rw [h2, ok_bind]
      simp only at hA ⊢
      rw [← Except.ok.inj hA]; simp
  exact Except.ok.inj (key.symm.trans m)

end Celltree.Fl
