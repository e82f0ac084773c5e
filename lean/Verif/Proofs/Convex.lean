import Verif.Proofs.Sides
import Verif.Proofs.ClipSpec
import Mathlib.Algebra.BigOperators.Group.List.Basic
import Mathlib.Tactic.Positivity

/-!
# Convex polygons
-/

set_option linter.unusedSectionVars false

namespace Celltree

section
variable {α : Type}

/-- A side is where two consecutive corners are, after a rotation. -/
theorem mem_pairs_split {l : List α} {s : α × α} (h : s ∈ pairs l) : ∃ u w, l = u ++ s.1 :: s.2 :: w := by
  induction l with
  | nil => simp at h
  | cons a l ih =>
    cases l with
    | nil => simp at h
    | cons b l =>
      rw [pairs_cons_cons, List.mem_cons] at h
      rcases h with rfl | h
      · exact ⟨[], l, rfl⟩
      · obtain ⟨u, w, e⟩ := ih h
        exact ⟨a :: u, w, by rw [e]; rfl⟩

theorem side_rotation {l : List α} {s : α × α} (h : s ∈ sides l) :
    (∃ rest, (s.1 :: s.2 :: rest) ~r l) ∨ (l = [s.1] ∧ s.2 = s.1) := by
  cases l with
  | nil => simp [sides] at h
  | cons a l =>
    obtain ⟨u, w, e⟩ := mem_pairs_split h
    rcases List.eq_nil_or_concat w with rfl | ⟨w', z, rfl⟩
    · have e' : a :: l ++ [a] = (u ++ [s.1]) ++ [s.2] := by rw [e]; simp
      obtain ⟨e1, e2⟩ := List.append_inj' e' rfl
      have e3 : a = s.2 := by simpa using e2
      cases u with
      | nil =>
        right
        simp only [List.nil_append, List.cons.injEq] at e1
        exact ⟨by rw [e1.1, e1.2], by rw [← e3, e1.1]⟩
      | cons x u =>
        left
        simp only [List.cons_append, List.cons.injEq] at e1
        refine ⟨u, ?_⟩
        rw [e1.2, ← e3]
        have : a :: (u ++ [s.1]) = (a :: u) ++ [s.1] := rfl
        rw [this]
        exact List.isRotated_append (l := [s.1]) (l' := a :: u)
    · left
      have e' : a :: l ++ [a] = (u ++ s.1 :: s.2 :: w') ++ [z] := by rw [e]; simp
      obtain ⟨e1, e2⟩ := List.append_inj' e' rfl
      refine ⟨w' ++ u, ?_⟩
      rw [e1]
      exact List.isRotated_append (l := s.1 :: s.2 :: w') (l' := u)

/-- Rotation to a given corner. -/
theorem mem_rotation {l : List α} {a : α} (h : a ∈ l) : ∃ rest, (a :: rest) ~r l := by
  obtain ⟨u, w, rfl⟩ := List.append_of_mem h
  exact ⟨w ++ u, List.isRotated_append (l := a :: w) (l' := u)⟩

/-- If a property holds at the start and turns on later in the list, it first turns off. -/
theorem off_on (f : α → Bool) (b : α) (l : List α) (hb : f b = true) {s : α × α} (hs : s ∈ pairs (b :: l))
    (h1 : f s.1 = false) (h2 : f s.2 = true) :
    ∃ u e x w d, b :: l = u ++ e :: x :: w ∧ f e = true ∧ f x = false ∧ d ∈ w ∧ f d = true := by
  induction l generalizing b with
  | nil => simp at hs
  | cons c l ih =>
    rw [pairs_cons_cons, List.mem_cons] at hs
    rcases hs with rfl | hs
    · rw [hb] at h1; cases h1
    · cases hc : f c with
      | true =>
        obtain ⟨u, e, x, w, d, g1, g2⟩ := ih c hc hs
        exact ⟨b :: u, e, x, w, d, by rw [g1]; rfl, g2⟩
      | false =>
        have : s.2 ∈ l := by
          obtain ⟨u, w, e⟩ := mem_pairs_split hs
          cases u with
          | nil =>
            simp only [List.nil_append, List.cons.injEq] at e
            rw [e.2]; exact List.mem_cons_self
          | cons y u =>
            simp only [List.cons_append, List.cons.injEq] at e
            rw [e.2]; simp
        exact ⟨[], b, c, l, s.2, rfl, hb, hc, this, h2⟩

/-- If a property turns on twice around a polygon, there are four corners in cyclic order where it is off, on, off, on. -/
theorem two_ups (f : α → Bool) (l : List α) (h : 2 ≤ (sides l).countP fun s => !f s.1 && f s.2) :
    ∃ l' A B E X D, l' ~r l ∧ (A, B) ∈ sides l ∧ (E, X) ∈ sides l ∧ f A = false ∧ f B = true ∧ f E = true ∧
      f X = false ∧ f D = true ∧ List.Sublist [A, B, X, D] l' ∧ List.Sublist [A, E, X, D] l' := by
  have hpos : 0 < (sides l).countP fun s => !f s.1 && f s.2 := by omega
  obtain ⟨s, hs, hf⟩ := List.countP_pos_iff.1 hpos
  obtain ⟨A, B⟩ := s
  simp only [Bool.and_eq_true, Bool.not_eq_true'] at hf
  rcases side_rotation hs with ⟨rest, hr⟩ | ⟨hl, hh⟩
  · simp only at hr
    have hp := sides_isRotated hr
    rw [← hp.countP_eq] at h
    have e : sides (A :: B :: rest) = (A, B) :: pairs (B :: rest ++ [A]) := rfl
    rw [e, List.countP_cons] at h
    have h' : 0 < (pairs (B :: rest ++ [A])).countP fun s => !f s.1 && f s.2 := by split at h <;> omega
    obtain ⟨t, ht, hft⟩ := List.countP_pos_iff.1 h'
    simp only [Bool.and_eq_true, Bool.not_eq_true'] at hft
    have ht' : t ∈ pairs (B :: rest) := by
      obtain ⟨u, w, ew⟩ := mem_pairs_split ht
      rcases List.eq_nil_or_concat w with rfl | ⟨w', z, rfl⟩
      · have e' : (B :: rest) ++ [A] = (u ++ [t.1]) ++ [t.2] := by rw [ew]; simp
        obtain ⟨_, e2⟩ := List.append_inj' e' rfl
        have : A = t.2 := by simpa using e2
        rw [← this, hf.1] at hft
        cases hft.2
      · have e' : (B :: rest) ++ [A] = (u ++ t.1 :: t.2 :: w') ++ [z] := by rw [ew]; simp
        obtain ⟨e1, _⟩ := List.append_inj' e' rfl
        rw [e1, pairs_append]
        simp
    obtain ⟨u, E, X, w, D, g1, g2, g3, g4, g5⟩ := off_on f B rest hf.2 ht' hft.1 hft.2
    refine ⟨A :: B :: rest, A, B, E, X, D, hr, hs, ?_, hf.1, hf.2, g2, g3, g5, ?_, ?_⟩
    · rw [← hp.mem_iff, e, g1, List.append_assoc, List.cons_append, List.cons_append, pairs_append]
      simp
    · apply List.Sublist.cons_cons
      rw [g1]
      have hd : List.Sublist [D] w := List.singleton_sublist.2 g4
      cases u with
      | nil =>
        simp only [List.nil_append, List.cons.injEq] at g1
        rw [← g1.1]
        exact ((hd.cons_cons X).cons_cons B)
      | cons y u =>
        simp only [List.cons_append, List.cons.injEq] at g1
        rw [← g1.1]
        exact List.Sublist.cons_cons _ ((((hd.cons_cons X).cons E)).trans (List.sublist_append_right _ _))
    · apply List.Sublist.cons_cons
      rw [g1]
      have hd : List.Sublist [D] w := List.singleton_sublist.2 g4
      exact ((hd.cons_cons X).cons_cons E).trans (List.sublist_append_right _ _)
  · simp only at hl hh
    subst hl
    rw [hh, hf.1] at hf
    cases hf.2

end

section
variable {K : Type} [Field K] [LinearOrder K] [IsStrictOrderedRing K]
variable {α : Type}

theorem sum_pairs_sub (g : α → K) (a : α) (l : List α) (z : α) :
    ((pairs (a :: l ++ [z])).map fun s => g s.2 - g s.1).sum = g z - g a := by
  induction l generalizing a with
  | nil => simp
  | cons b l ih =>
    have := ih b
    simp only [List.cons_append, pairs_cons_cons, List.map_cons, List.sum_cons] at this ⊢
    rw [this]; ring

/-- Differences around a polygon add up to zero. -/
theorem sum_sides_sub (g : α → K) (l : List α) : ((sides l).map fun s => g s.2 - g s.1).sum = 0 := by
  cases l with
  | nil => rfl
  | cons a l => unfold sides; rw [sum_pairs_sub]; ring

theorem all_zero_of_sum {l : List K} (h : ∀ x ∈ l, 0 ≤ x) (hs : l.sum = 0) : ∀ x ∈ l, x = 0 := by
  induction l with
  | nil => simp
  | cons a l ih =>
    have h1 : 0 ≤ l.sum := List.sum_nonneg fun x hx => h x (List.mem_cons_of_mem _ hx)
    have h2 := h a List.mem_cons_self
    rw [List.sum_cons] at hs
    intro x hx
    rcases List.mem_cons.1 hx with rfl | hx
    · linarith
    · exact ih (fun x hx => h x (List.mem_cons_of_mem _ hx)) (by linarith) x hx

/-- A quantity that does not decrease along any side is constant. -/
theorem const_of_mono (g : α → K) {l : List α} (h : ∀ s ∈ sides l, g s.1 ≤ g s.2) : ∀ s ∈ sides l, g s.1 = g s.2 := by
  intro s hs
  have := all_zero_of_sum (l := (sides l).map fun s => g s.2 - g s.1) (by
    intro x hx
    obtain ⟨t, ht, rfl⟩ := List.mem_map.1 hx
    have := h t ht
    linarith) (sum_sides_sub g l) _ (List.mem_map.2 ⟨s, hs, rfl⟩)
  linarith

theorem const_pairs {β : Type} (g : α → β) (a : α) (l : List α) (h : ∀ s ∈ pairs (a :: l), g s.1 = g s.2) :
    ∀ v ∈ a :: l, g v = g a := by
  induction l generalizing a with
  | nil => intro v hv; rw [List.mem_singleton.1 hv]
  | cons b l ih =>
    intro v hv
    have hab : g a = g b := h (a, b) (by simp)
    rcases List.mem_cons.1 hv with rfl | hv
    · rfl
    · rw [hab]
      exact ih b (fun s hs => h s (by rw [pairs_cons_cons]; exact List.mem_cons_of_mem _ hs)) v hv

theorem const_sides {β : Type} (g : α → β) {l : List α} (h : ∀ s ∈ sides l, g s.1 = g s.2) {v w : α} (hv : v ∈ l)
    (hw : w ∈ l) : g v = g w := by
  cases l with
  | nil => cases hv
  | cons a l =>
    have hsub : ∀ s ∈ pairs (a :: l), g s.1 = g s.2 := by
      intro s hs
      apply h
      obtain ⟨u, w, e⟩ := mem_pairs_split hs
      change s ∈ pairs (a :: l ++ [a])
      rw [e, List.append_assoc, List.cons_append, List.cons_append, pairs_append]
      simp
    rw [const_pairs g a l hsub v hv, const_pairs g a l hsub w hw]

/-- If a property holds for some corner and not for another, it turns on along some side. -/
theorem exists_up (f : α → Bool) {l : List α} {v w : α} (hv : v ∈ l) (hw : w ∈ l) (h1 : f v = false) (h2 : f w = true) :
    ∃ s ∈ sides l, f s.1 = false ∧ f s.2 = true := by
  by_contra hno
  push Not at hno
  have hmono : ∀ s ∈ sides l, (if f s.1 then (0 : ℤ) else 1) ≤ if f s.2 then 0 else 1 := by
    intro s hs
    have := hno s hs
    cases g1 : f s.1 <;> cases g2 : f s.2 <;> simp_all
  have hc : ∀ s ∈ sides l, (if f s.1 then (0 : ℚ) else 1) = if f s.2 then 0 else 1 :=
    const_of_mono (fun x => if f x then (0 : ℚ) else 1) (fun s hs => by
      have := hmono s hs
      cases g1 : f s.1 <;> cases g2 : f s.2 <;> simp_all)
  have := const_sides (fun x => if f x then (0 : ℚ) else 1) hc hv hw
  simp [h1, h2] at this

/-- As often as a property turns on, it turns off. -/
theorem ups_eq_downs (f : α → Bool) (l : List α) :
    (sides l).countP (fun s => !f s.1 && f s.2) = (sides l).countP (fun s => f s.1 && !f s.2) := by
  have h := sum_sides_sub (fun x => if f x then (1 : ℚ) else 0) l
  have key : ∀ L : List (α × α), (L.map fun s => (if f s.2 then (1 : ℚ) else 0) - if f s.1 then 1 else 0).sum =
      (L.countP (fun s => !f s.1 && f s.2) : ℚ) - (L.countP (fun s => f s.1 && !f s.2) : ℚ) := by
    intro L
    induction L with
    | nil => simp
    | cons s L ih =>
      rw [List.map_cons, List.sum_cons, ih, List.countP_cons, List.countP_cons]
      cases g1 : f s.1 <;> cases g2 : f s.2 <;> simp <;> ring
  rw [key] at h
  have : ((sides l).countP (fun s => !f s.1 && f s.2) : ℚ) = ((sides l).countP (fun s => f s.1 && !f s.2) : ℚ) := by
    linarith
  exact_mod_cast this

/-! ## Orientation -/

theorem orient_rot (a b c : Pt K) : orient b c a = orient a b c := by unfold orient; ring
theorem orient_self_left (a b : Pt K) : orient a b a = 0 := by unfold orient; ring
theorem orient_self_right (a b : Pt K) : orient a b b = 0 := by unfold orient; ring
theorem orient_same (a b : Pt K) : orient a a b = 0 := by unfold orient; ring

theorem orient_swap' (a b c : Pt K) : orient b a c = - orient a b c := by unfold orient; ring

/-- Three points on one line. -/
theorem orient_collinear {a b x y z : Pt K} (hab : a ≠ b) (hx : orient a b x = 0) (hy : orient a b y = 0)
    (hz : orient a b z = 0) : orient x y z = 0 := by
  have h1 : (b.x - a.x) * orient x y z = 0 := by
    unfold orient at *
    linear_combination (y.x - x.x) * (hz - hx) - (z.x - x.x) * (hy - hx)
  have h2 : (b.y - a.y) * orient x y z = 0 := by
    unfold orient at *
    linear_combination (y.y - x.y) * (hz - hx) - (z.y - x.y) * (hy - hx)
  rcases mul_eq_zero.1 h1 with h | h
  · rcases mul_eq_zero.1 h2 with h' | h'
    · exact (hab (Pt.ext' (by linarith) (by linarith))).elim
    · exact h'
  · exact h

/-- A linear function of the coordinates: the position along direction `d`. -/
def along (d v : Pt K) : K := d.x * v.x + d.y * v.y

/-- The position across direction `d`. -/
def across (d v : Pt K) : K := d.x * v.y - d.y * v.x

theorem along_across_inj {d v w : Pt K} (hd : d.x ≠ 0 ∨ d.y ≠ 0) (h1 : along d v = along d w)
    (h2 : across d v = across d w) : v = w := by
  unfold along across at *
  have hp : d.x ^ 2 + d.y ^ 2 ≠ 0 := by
    rcases hd with h | h
    · have := sq_nonneg d.y; have : 0 < d.x ^ 2 := by positivity
      linarith [this]
    · have := sq_nonneg d.x; have : 0 < d.y ^ 2 := by positivity
      linarith [this]
  apply Pt.ext'
  · have : (d.x ^ 2 + d.y ^ 2) * (v.x - w.x) = 0 := by linear_combination d.x * h1 - d.y * h2
    rcases mul_eq_zero.1 this with h | h
    · exact (hp h).elim
    · linarith
  · have : (d.x ^ 2 + d.y ^ 2) * (v.y - w.y) = 0 := by linear_combination d.y * h1 + d.x * h2
    rcases mul_eq_zero.1 this with h | h
    · exact (hp h).elim
    · linarith

/-- Orientation in the coordinates along and across a direction. -/
theorem orient_along_across (d a b c : Pt K) : (d.x ^ 2 + d.y ^ 2) * orient a b c =
    (along d b - along d a) * (across d c - across d a) - (across d b - across d a) * (along d c - along d a) := by
  unfold orient along across; ring

/-- Four points: the crossing of the diagonals. -/
theorem four_points (d A B C D : Pt K) :
    orient B C D * along d A + orient A B D * along d C = orient A C D * along d B + orient A B C * along d D := by
  unfold orient along; ring

theorem four_points_sum (A B C D : Pt K) : orient B C D + orient A B D = orient A C D + orient A B C := by
  unfold orient; ring

/-! ## Convex polygons -/

/-- Three corners in the order of a rotation, with the same orientation. -/
theorem sublist_append_comm (l l' : List (Pt K)) (a b c : Pt K) (hs : List.Sublist [a, b, c] (l' ++ l)) :
    ∃ a' b' c', List.Sublist [a', b', c'] (l ++ l') ∧ orient a b c = orient a' b' c' := by
  obtain ⟨s1, s2, e, h1, h2⟩ := List.sublist_append_iff.1 hs
  rcases s1 with _ | ⟨x, _ | ⟨y, _ | ⟨z, s1⟩⟩⟩
  · simp only [List.nil_append] at e
    subst e
    exact ⟨a, b, c, h2.trans (List.sublist_append_left _ _), rfl⟩
  · simp only [List.cons_append, List.nil_append, List.cons.injEq] at e
    obtain ⟨rfl, rfl⟩ := e
    exact ⟨b, c, a, List.Sublist.append (l₁ := [b, c]) h2 h1, (orient_rot a b c).symm⟩
  · simp only [List.cons_append, List.nil_append, List.cons.injEq] at e
    obtain ⟨rfl, rfl, rfl⟩ := e
    exact ⟨c, a, b, List.Sublist.append (l₁ := [c]) h2 h1, by rw [orient_rot c a b]⟩
  · simp only [List.cons_append, List.cons.injEq] at e
    obtain ⟨rfl, rfl, rfl, e⟩ := e
    have := List.append_eq_nil_iff.1 e.symm
    rw [this.1] at h1
    exact ⟨a, b, c, h1.trans (List.sublist_append_right _ _), rfl⟩

theorem ConvexPoly.append_comm {l l' : List (Pt K)} (h : ConvexPoly (l ++ l')) : ConvexPoly (l' ++ l) := by
  refine ⟨fun a b c hs => ?_, ?_⟩
  · obtain ⟨a', b', c', h1, h2⟩ := sublist_append_comm l l' a b c hs
    rw [h2]; exact h.turn _ _ _ h1
  · obtain ⟨a, b, c, h1, h2⟩ := h.nondeg
    obtain ⟨a', b', c', h3, h4⟩ := sublist_append_comm l' l a b c h1
    exact ⟨a', b', c', h3, by rw [← h4]; exact h2⟩

theorem StrictlyConvex.rotated {l l' : List (Pt K)} (h : StrictlyConvex l) (hr : l ~r l') : StrictlyConvex l' := by
  refine ⟨hr.perm.length_eq ▸ h.length, fun a b c hs => ?_⟩
  obtain ⟨n, rfl⟩ := hr
  rw [List.rotate_eq_drop_append_take_mod] at hs
  obtain ⟨a', b', c', h1, h2⟩ := sublist_append_comm _ _ a b c hs
  rw [List.take_append_drop] at h1
  rw [h2]; exact h.turn _ _ _ h1

theorem ConvexPoly.rotated {l l' : List (Pt K)} (h : ConvexPoly l) (hr : l ~r l') : ConvexPoly l' := by
  obtain ⟨n, rfl⟩ := hr
  rw [List.rotate_eq_drop_append_take_mod]
  apply ConvexPoly.append_comm
  rwa [List.take_append_drop]

theorem InPoly.rotated {l l' : List (Pt K)} {p : Pt K} (h : InPoly l p) (hr : l ~r l') : InPoly l' p :=
  fun s hs => h s ((sides_isRotated hr).mem_iff.2 hs)

theorem InInterior.rotated {l l' : List (Pt K)} {p : Pt K} (h : InInterior l p) (hr : l ~r l') : InInterior l' p :=
  fun s hs => h s ((sides_isRotated hr).mem_iff.2 hs)

theorem InInterior.inPoly {l : List (Pt K)} {p : Pt K} (h : InInterior l p) : InPoly l p := by
  intro s hs
  by_cases e : s.1 = s.2
  · rw [e, orient_same]
  · exact (h s hs e).le

/-- All corners are on the left of every side. -/
theorem ConvexPoly.support {l : List (Pt K)} (h : ConvexPoly l) {s : Pt K × Pt K} (hs : s ∈ sides l) {v : Pt K}
    (hv : v ∈ l) : 0 ≤ orient s.1 s.2 v := by
  rcases side_rotation hs with ⟨rest, hr⟩ | ⟨hl, hh⟩
  · have h' := h.rotated hr.symm
    have hv' : v ∈ s.1 :: s.2 :: rest := hr.mem_iff.2 hv
    rcases List.mem_cons.1 hv' with rfl | hv'
    · rw [orient_self_left]
    rcases List.mem_cons.1 hv' with rfl | hv'
    · rw [orient_self_right]
    exact h'.turn _ _ _ ((List.Sublist.cons_cons _ (List.Sublist.cons_cons _ (List.singleton_sublist.2 hv'))))
  · rw [hh, orient_same]

theorem ConvexPoly.corner_inPoly {l : List (Pt K)} (h : ConvexPoly l) {v : Pt K} (hv : v ∈ l) : InPoly l v :=
  fun _ hs => h.support hs hv

/-- Not all corners are on one line. -/
theorem ConvexPoly.not_collinear {l : List (Pt K)} (h : ConvexPoly l) {a b : Pt K} (hab : a ≠ b)
    (hc : ∀ v ∈ l, orient a b v = 0) : False := by
  obtain ⟨x, y, z, hs, hpos⟩ := h.nondeg
  have hx := hc x (hs.subset (by simp))
  have hy := hc y (hs.subset (by simp))
  have hz := hc z (hs.subset (by simp))
  have := orient_collinear hab hx hy hz
  linarith

theorem ConvexPoly.ne_nil {l : List (Pt K)} (h : ConvexPoly l) : l ≠ [] := by
  obtain ⟨x, y, z, hs, _⟩ := h.nondeg
  rintro rfl
  have := hs.length_le
  simp at this

theorem ConvexPoly.length {l : List (Pt K)} (h : ConvexPoly l) : 3 ≤ l.length := by
  obtain ⟨x, y, z, hs, _⟩ := h.nondeg
  have := hs.length_le
  simpa using this

/-- There is a side of positive length from every corner. -/
theorem ConvexPoly.side_from {l : List (Pt K)} (h : ConvexPoly l) {v : Pt K} (hv : v ∈ l) :
    ∃ w, (v, w) ∈ sides l ∧ w ≠ v := by
  classical
  have : ∃ w ∈ l, w ≠ v := by
    by_contra hno
    push Not at hno
    obtain ⟨x, y, z, hs, hpos⟩ := h.nondeg
    rw [hno x (hs.subset (by simp)), hno y (hs.subset (by simp)), orient_same] at hpos
    exact lt_irrefl _ hpos
  obtain ⟨w, hw, hne⟩ := this
  obtain ⟨s, hs, h1, h2⟩ := exists_up (fun x => decide (x ≠ v)) hv hw (by simp) (by simpa using hne)
  simp only [decide_eq_false_iff_not, not_not, decide_eq_true_eq] at h1 h2
  exact ⟨s.2, by rw [← h1]; exact hs, h2⟩

/-- There is a side of positive length to every corner. -/
theorem ConvexPoly.side_to {l : List (Pt K)} (h : ConvexPoly l) {v : Pt K} (hv : v ∈ l) :
    ∃ w, (w, v) ∈ sides l ∧ w ≠ v := by
  classical
  have : ∃ w ∈ l, w ≠ v := by
    obtain ⟨w, hw, hne⟩ := h.side_from hv
    exact ⟨w, (mem_sides_mem hw).2, hne⟩
  obtain ⟨w, hw, hne⟩ := this
  obtain ⟨s, hs, h1, h2⟩ := exists_up (fun x => decide (x = v)) hw hv (by simpa using hne) (by simp)
  simp only [decide_eq_false_iff_not, decide_eq_true_eq] at h1 h2
  exact ⟨s.1, by rw [← h2]; exact hs, h1⟩

/-- A level line is crossed at most once in the upward direction. -/
theorem ConvexPoly.ups_le_one {l : List (Pt K)} (h : ConvexPoly l) (d : Pt K) (c : K) :
    (sides l).countP (fun s => !decide (c < along d s.1) && decide (c < along d s.2)) ≤ 1 := by
  by_contra hgt
  obtain ⟨l', A, B, E, X, D, hr, sAB, sEX, fA, fB, fE, fX, fD, sub1, sub2⟩ :=
    two_ups (fun v => decide (c < along d v)) l (by omega)
  simp only [decide_eq_false_iff_not, not_lt, decide_eq_true_eq] at fA fB fE fX fD
  have h' := h.rotated hr.symm
  have quad : ∀ P Q R S : Pt K, List.Sublist [P, Q, R, S] l' → along d P ≤ c → c < along d Q → along d R ≤ c →
      c < along d S → orient P R S = 0 ∧ orient P Q R = 0 ∧ orient Q R S = 0 ∧ orient P Q S = 0 := by
    intro P Q R S hs hP hQ hR hS
    have t1 : 0 ≤ orient P Q R := h'.turn _ _ _ (List.Sublist.trans (by simp) hs)
    have t2 : 0 ≤ orient P Q S := h'.turn _ _ _ (List.Sublist.trans (by simp) hs)
    have t3 : 0 ≤ orient P R S := h'.turn _ _ _ (List.Sublist.trans (by simp) hs)
    have t4 : 0 ≤ orient Q R S := h'.turn _ _ _ (List.Sublist.trans (by simp) hs)
    have e1 := four_points d P Q R S
    have e2 := four_points_sum P Q R S
    have i1 := mul_nonneg t4 (sub_nonneg.2 hP)
    have i2 := mul_nonneg t2 (sub_nonneg.2 hR)
    have i3 := mul_nonneg t3 (sub_nonneg.2 hQ.le)
    have i4 := mul_nonneg t1 (sub_nonneg.2 hS.le)
    have e3 : orient Q R S * (along d P - c) + orient P Q S * (along d R - c) =
        orient P R S * (along d Q - c) + orient P Q R * (along d S - c) := by linear_combination e1 - c * e2
    have z3 : orient P R S * (along d Q - c) = 0 := by apply le_antisymm <;> linarith
    have z4 : orient P Q R * (along d S - c) = 0 := by apply le_antisymm <;> linarith
    have r3 : orient P R S = 0 := by
      rcases mul_eq_zero.1 z3 with h | h
      · exact h
      · linarith
    have r4 : orient P Q R = 0 := by
      rcases mul_eq_zero.1 z4 with h | h
      · exact h
      · linarith
    exact ⟨r3, r4, by linarith, by linarith⟩
  obtain ⟨q1, q2, q3, q4⟩ := quad A B X D sub1 fA fB fX fD
  obtain ⟨r1, r2, r3, r4⟩ := quad A E X D sub2 fA fE fX fD
  -- all corners are left of `A B` and of `E X`, which go in opposite directions on one line
  have hAD : A ≠ D := by rintro rfl; linarith
  apply h.not_collinear hAD
  intro v hv
  have s1 := h.support sAB hv
  have s2 := h.support sEX hv
  simp only at s1 s2
  have hd : (d.x ^ 2 + d.y ^ 2 : K) ≠ 0 := by
    intro h0
    have hx : d.x = 0 := by nlinarith [sq_nonneg d.x, sq_nonneg d.y]
    have hy : d.y = 0 := by nlinarith [sq_nonneg d.x, sq_nonneg d.y]
    unfold along at fA fB
    rw [hx, hy] at fA fB
    linarith
  have hdp : 0 < d.x ^ 2 + d.y ^ 2 := lt_of_le_of_ne (by positivity) (Ne.symm hd)
  -- position across, as seen from the line `A D`
  have key : ∀ P Q : Pt K, orient A P D = 0 → orient A Q D = 0 → (along d D - along d A) * orient P Q v =
      (along d Q - along d P) * orient A D v := by
    intro P Q hP hQ
    have hD : 0 < along d D - along d A := by linarith
    have gP := orient_along_across d A P D
    have gQ := orient_along_across d A Q D
    have g1 := orient_along_across d P Q v
    have g2 := orient_along_across d A D v
    rw [hP, mul_zero] at gP
    rw [hQ, mul_zero] at gQ
    apply mul_left_cancel₀ hd
    rw [mul_left_comm, g1, mul_left_comm, g2]
    linear_combination (along d v - along d P - (along d Q - along d P)) * gP - (along d v - along d P) * gQ
  have k1 := key A B (by unfold orient; ring) q4
  have k2 := key E X r4 (by rw [← orient_rot A X D, orient_swap'] at *; linarith)
  have m1 : 0 < along d B - along d A := by linarith
  have m2 : along d X - along d E < 0 := by linarith
  have m3 : 0 < along d D - along d A := by linarith
  have n1 : 0 ≤ orient A D v := by
    by_contra hlt
    push Not at hlt
    have := mul_neg_of_pos_of_neg m1 hlt
    have := mul_nonneg m3.le s1
    linarith
  have n2 : orient A D v ≤ 0 := by
    by_contra hlt
    push Not at hlt
    have := mul_neg_of_neg_of_pos m2 hlt
    have := mul_nonneg m3.le s2
    linarith
  linarith

theorem StrictlyConvex.convex {l : List (Pt K)} (h : StrictlyConvex l) : ConvexPoly l := by
  refine ⟨fun a b c hs => (h.turn a b c hs).le, ?_⟩
  match l, h with
  | a :: b :: c :: l, h => exact ⟨a, b, c, by simp, h.turn a b c (by simp)⟩
  | [], h => have := h.length; simp at this
  | [_], h => have := h.length; simp at this
  | [_, _], h => have := h.length; simp at this

end
end Celltree
