import Verif.Proofs.HalfPlane

/-!
# The set of points and the number of corners of a clipped polygon
-/

set_option linter.unusedSectionVars false
set_option linter.unusedSimpArgs false

namespace Celltree

section
variable {K : Type} [Field K] [LinearOrder K] [IsStrictOrderedRing K]

/-- What is not negative in the corners is not negative in the polygon. -/
theorem ConvexPoly.hull {l : List (Pt K)} (h : ConvexPoly l) {p r s : Pt K} (hp : InPoly l p)
    (hv : ∀ v ∈ l, 0 ≤ orient r s v) : 0 ≤ orient r s p := by
  by_cases hrs : r = s
  · rw [hrs, orient_same]
  obtain ⟨v, hv1, hle⟩ := h.exists_le hp (normal_ne hrs)
  rw [along_normal, along_normal r s p] at hle
  have := hv v hv1
  linarith

theorem ConvexPoly.hull_neg {l : List (Pt K)} (h : ConvexPoly l) {p r s : Pt K} (hp : InPoly l p)
    (hv : ∀ v ∈ l, orient r s v ≤ 0) : orient r s p ≤ 0 := by
  have := h.hull (r := s) (s := r) hp (fun v hv1 => by rw [orient_swap']; have := hv v hv1; linarith)
  rw [orient_swap'] at this
  linarith

/-- How the last corner `o` of the clipped polygon goes with the last visited corner `a`. -/
def Follows (r s o a : Pt K) : Prop := (0 < orient r s a → o = a) ∧ (orient r s a ≤ 0 → orient r s o = 0)

/-- A side of the clipped polygon is a piece of a side, or is on the line. -/
def GoodSide (r s : Pt K) (S : List (Pt K × Pt K)) (p : Pt K × Pt K) : Prop :=
  (∃ q ∈ S, ∃ u v, u ≤ v ∧ p.1 = lineAt q.1 q.2 u ∧ p.2 = lineAt q.1 q.2 v) ∨ (orient r s p.1 = 0 ∧ orient r s p.2 = 0)

theorem clipGo_follows (r s : Pt K) (l : List (Pt K)) (o a : Pt K) (h : Follows r s o a) :
    Follows r s ((o :: clipGo r s a l).getLast (by simp)) ((a :: l).getLast (by simp)) := by
  induction l generalizing o a with
  | nil => simpa [clipGo] using h
  | cons b l ih =>
    have e : ∀ x, (x :: b :: l).getLast (by simp) = (b :: l).getLast (by simp) := fun x => by simp
    rw [e]
    by_cases hab : a = b
    · subst hab
      simp only [clipGo, if_true]
      exact ih o a h
    by_cases hb : 0 < orient r s b
    · have := ih b b ⟨fun _ => rfl, fun h => absurd hb (not_lt.2 h)⟩
      have e2 : (o :: clipGo r s a (b :: l)).getLast (by simp) = (b :: clipGo r s b l).getLast (by simp) := by
        have : o :: clipGo r s a (b :: l) = (o :: if 0 < orient r s a then [] else [cutPoint r s a b]) ++ b :: clipGo r s b l := by
          simp [clipGo, hab, hb]
        simp only [this]
        rw [List.getLast_append_of_ne_nil (by simp)]
      rw [e2]; exact this
    · by_cases ha : 0 < orient r s a
      · have := ih (cutPoint r s a b) b ⟨fun h => absurd h hb, fun _ => Opp.on_line (Or.inr ⟨ha, not_lt.1 hb⟩)⟩
        have e2 : (o :: clipGo r s a (b :: l)).getLast (by simp) = (cutPoint r s a b :: clipGo r s b l).getLast (by simp) := by
          simp [clipGo, hab, hb, ha]
        rw [e2]; exact this
      · have := ih o b ⟨fun h => absurd h hb, fun _ => h.2 (not_lt.1 ha)⟩
        simp only [clipGo, if_neg hab, if_neg hb, if_neg ha]
        exact this

theorem clipGo_good (r s : Pt K) (S : List (Pt K × Pt K)) (l : List (Pt K)) (o a : Pt K) (h : Follows r s o a)
    (hS : ∀ q ∈ pairs (a :: l), q ∈ S) : ∀ p ∈ pairs (o :: clipGo r s a l), GoodSide r s S p := by
  induction l generalizing o a with
  | nil => intro p hp; simp [clipGo] at hp
  | cons b l ih =>
    have hS' : ∀ q ∈ pairs (b :: l), q ∈ S := fun q hq => hS q (by rw [pairs_cons_cons]; exact List.mem_cons_of_mem _ hq)
    have hab' : (a, b) ∈ S := hS _ (by simp)
    by_cases hab : a = b
    · subst hab
      simp only [clipGo, if_true]
      exact ih o a h hS'
    by_cases hb : 0 < orient r s b
    · have hr := ih b b ⟨fun _ => rfl, fun h => absurd hb (not_lt.2 h)⟩ hS'
      by_cases ha : 0 < orient r s a
      · simp only [clipGo, if_neg hab, if_pos hb, if_pos ha, List.nil_append, pairs_cons_cons, List.mem_cons]
        rintro p (rfl | hp)
        · refine Or.inl ⟨(a, b), hab', 0, 1, zero_le_one, ?_, ?_⟩
          · rw [lineAt_zero]; exact h.1 ha
          · rw [lineAt_one]
        · exact hr p hp
      · have ho : Opp r s a b := Or.inl ⟨not_lt.1 ha, hb⟩
        obtain ⟨u, _, hu, e⟩ := ho.param
        simp only [clipGo, if_neg hab, if_pos hb, if_neg ha, List.singleton_append, pairs_cons_cons, List.mem_cons]
        rintro p (rfl | rfl | hp)
        · exact Or.inr ⟨h.2 (not_lt.1 ha), ho.on_line⟩
        · refine Or.inl ⟨(a, b), hab', u, 1, hu, e, ?_⟩
          rw [lineAt_one]
        · exact hr p hp
    · by_cases ha : 0 < orient r s a
      · have ho : Opp r s a b := Or.inr ⟨ha, not_lt.1 hb⟩
        have hr := ih (cutPoint r s a b) b ⟨fun h => absurd h hb, fun _ => ho.on_line⟩ hS'
        obtain ⟨u, hu, _, e⟩ := ho.param
        simp only [clipGo, if_neg hab, if_neg hb, if_pos ha, pairs_cons_cons, List.mem_cons]
        rintro p (rfl | hp)
        · refine Or.inl ⟨(a, b), hab', 0, u, hu, ?_, e⟩
          rw [lineAt_zero]; exact h.1 ha
        · exact hr p hp
      · simp only [clipGo, if_neg hab, if_neg hb, if_neg ha]
        exact ih o b ⟨fun h => absurd h hb, fun _ => h.2 (not_lt.1 ha)⟩ hS'

theorem clipHalf_sides {r s : Pt K} {l : List (Pt K)} (hne : l ≠ []) {p : Pt K × Pt K}
    (hp : p ∈ sides (clipHalf r s l)) : GoodSide r s (sides l) p := by
  rw [clipHalf_eq hne] at hp
  by_cases ho : clipGo r s (l.getLast hne) l = []
  · rw [ho] at hp; simp [sides] at hp
  rw [mem_sides_pairs ho] at hp
  refine clipGo_good r s (sides l) l _ _ ?_ (fun q hq => (mem_sides_pairs hne).2 hq) p hp
  -- the last corner goes with the last corner
  have start : ∃ o, Follows r s o (l.getLast hne) := by
    by_cases h : 0 < orient r s (l.getLast hne)
    · exact ⟨_, fun _ => rfl, fun h' => absurd h (not_lt.2 h')⟩
    · exact ⟨r, fun h' => absurd h' h, fun _ => orient_self_left r s⟩
  obtain ⟨o, h⟩ := start
  have := clipGo_follows r s l o _ h
  rwa [List.getLast_cons ho, List.getLast_cons hne] at this

/-- Two functions that vanish in the same two points. -/
theorem orient_prop {r s x y : Pt K} (hx : orient r s x = 0) (hy : orient r s y = 0) (p w : Pt K) :
    orient x y p * orient r s w = orient x y w * orient r s p := by
  unfold orient at *
  linear_combination ((p.x - x.x) * (w.y - x.y) - (p.y - x.y) * (w.x - x.x)) * (hx - hy) -
    ((y.x - x.x) * (w.y - p.y) - (y.y - x.y) * (w.x - p.x)) * hx

/-- The points of the clipped polygon. -/
theorem clipHalf_inPoly {r s : Pt K} {l : List (Pt K)} (h : ConvexPoly l) {w : Pt K} (hw : w ∈ l)
    (hpos : 0 < orient r s w) (p : Pt K) : InPoly (clipHalf r s l) p ↔ InPoly l p ∧ 0 ≤ orient r s p := by
  have hc := clipHalf_convex h hw hpos
  constructor
  · intro hp
    refine ⟨fun q hq => ?_, ?_⟩
    · exact hc.hull hp fun v hv => (clipHalf_mem h hv).1 q hq
    · exact hc.hull hp fun v hv => (clipHalf_mem h hv).2
  · rintro ⟨hp, hp'⟩ q hq
    have hwo : w ∈ clipHalf r s l := by
      obtain ⟨u, hu, hun⟩ := h.side_to hw
      rw [clipHalf_eq h.ne_nil]
      exact (clipGo_keeps ((mem_sides_pairs h.ne_nil).1 hu) hun).1 hpos
    rcases clipHalf_sides h.ne_nil hq with ⟨t, ht, u, v, huv, e1, e2⟩ | ⟨e1, e2⟩
    · have : orient q.1 q.2 p = (v - u) * orient t.1 t.2 p := by
        rw [e1, e2]; unfold orient lineAt; ring
      rw [this]
      exact mul_nonneg (by linarith) (hp t ht)
    · have e := orient_prop e1 e2 p w
      have h1 := mul_nonneg (hc.support hq hwo) hp'
      by_contra hh
      push Not at hh
      have := mul_neg_of_neg_of_pos hh hpos
      linarith

/-- Nothing is left if no corner is strictly on the left of the line. -/
theorem clipHalf_nil {r s : Pt K} {l : List (Pt K)} (h : ∀ v ∈ l, orient r s v ≤ 0) : clipHalf r s l = [] := by
  by_cases hne : l = []
  · subst hne; rfl
  rw [clipHalf_eq hne, List.eq_nil_iff_forall_not_mem]
  intro p hp
  rcases clipGo_mem hp with ⟨h1, h2⟩ | ⟨q, h1, h2, _⟩
  · exact absurd h2 (not_lt.2 (h p h1))
  · have hq := mem_sides_mem ((mem_sides_pairs hne).2 h1)
    rcases h2 with ⟨_, h2⟩ | ⟨h2, _⟩
    · exact absurd h2 (not_lt.2 (h _ hq.2))
    · exact absurd h2 (not_lt.2 (h _ hq.1))

/-! ## Number of corners -/

theorem clipGo_length (r s a : Pt K) (l : List (Pt K)) :
    (clipGo r s a l).length ≤ l.countP (fun v => decide (0 < orient r s v)) +
      (pairs (a :: l)).countP (fun q => !decide (0 < orient r s q.1) && decide (0 < orient r s q.2)) +
      (pairs (a :: l)).countP (fun q => decide (0 < orient r s q.1) && !decide (0 < orient r s q.2)) := by
  induction l generalizing a with
  | nil => simp [clipGo]
  | cons b l ih =>
    have hi := ih b
    by_cases hab : a = b
    · subst hab
      simp only [clipGo, if_true, pairs_cons_cons, List.countP_cons]
      omega
    by_cases hb : 0 < orient r s b <;> by_cases ha : 0 < orient r s a
    · simp only [clipGo, if_neg hab, hb, ha, if_true, pairs_cons_cons, List.countP_cons, decide_true, Bool.not_true,
        Bool.false_and, Bool.and_false, Bool.false_eq_true, if_false, List.nil_append, List.length_cons]
      omega
    · simp only [clipGo, if_neg hab, hb, ha, if_true, pairs_cons_cons, List.countP_cons, decide_true, decide_false, Bool.not_true,
        Bool.not_false, Bool.and_true,
        Bool.false_and, Bool.and_false, Bool.false_eq_true, if_false, List.singleton_append, List.length_cons]
      omega
    · simp only [clipGo, if_neg hab, hb, ha, if_true, pairs_cons_cons, List.countP_cons, decide_true, decide_false, Bool.not_true,
        Bool.not_false, Bool.and_true,
        Bool.false_and, Bool.and_false, Bool.false_eq_true, if_false, List.singleton_append, List.length_cons]
      omega
    · simp only [clipGo, if_neg hab, hb, ha, if_true, pairs_cons_cons, List.countP_cons, decide_true, decide_false, Bool.not_true,
        Bool.not_false, Bool.and_true,
        Bool.false_and, Bool.and_false, Bool.false_eq_true, if_false, List.singleton_append, List.length_cons]
      omega

/-- Clipping a convex polygon adds at most one corner. -/
theorem clipHalf_length {r s : Pt K} {l : List (Pt K)} (h : ConvexPoly l) : (clipHalf r s l).length ≤ l.length + 1 := by
  have hne := h.ne_nil
  by_cases hrs : r = s
  · rw [clipHalf_nil (fun v _ => by rw [hrs, orient_same])]; simp
  rw [clipHalf_eq hne]
  have h1 := clipGo_length r s (l.getLast hne) l
  have hp : (sides l).Perm (pairs (l.getLast hne :: l)) := by
    match l, hne with
    | a :: l, hne => exact sides_perm a l
  rw [← hp.countP_eq, ← hp.countP_eq, ← ups_eq_downs (fun v => decide (0 < orient r s v))] at h1
  have h2 : (sides l).countP (fun q => !decide (0 < orient r s q.1) && decide (0 < orient r s q.2)) ≤ 1 := by
    have := h.ups_le_one ⟨-(s.y - r.y), s.x - r.x⟩ (along ⟨-(s.y - r.y), s.x - r.x⟩ r)
    have key : ∀ v, decide (along ⟨-(s.y - r.y), s.x - r.x⟩ r < along ⟨-(s.y - r.y), s.x - r.x⟩ v) =
        decide (0 < orient r s v) := by
      intro v
      rw [along_normal r s v, Bool.eq_iff_iff, decide_eq_true_iff, decide_eq_true_iff, lt_add_iff_pos_right]
    simpa only [key] using this
  by_cases h0 : (sides l).countP (fun q => !decide (0 < orient r s q.1) && decide (0 < orient r s q.2)) = 0
  · have := List.countP_le_length (l := l) (p := fun v => decide (0 < orient r s v))
    omega
  · have h3 : l.countP (fun v => decide (0 < orient r s v)) < l.length := by
      obtain ⟨q, hq, hf⟩ := List.countP_pos_iff.1 (Nat.pos_of_ne_zero h0)
      have hle := List.countP_le_length (l := l) (p := fun v => decide (0 < orient r s v))
      refine lt_of_le_of_ne hle fun heq => ?_
      have := List.countP_eq_length.1 heq q.1 (mem_sides_mem hq).1
      simp only [Bool.and_eq_true, Bool.not_eq_true', decide_eq_false_iff_not] at hf
      exact hf.1 (by simpa using this)
    omega

end
end Celltree
