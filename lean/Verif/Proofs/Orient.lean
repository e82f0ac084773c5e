import Verif.Proofs.Points
import Verif.Proofs.CyrusBeck

/-!
# `counter_clockwise` on convex faces, in exact arithmetic
-/

set_option linter.unusedSectionVars false

namespace Celltree

/-- A stretch of a polygon that runs at most once around it is in order. -/
theorem infix_rotation {α : Type} {l X : List α} (hlen : X.length ≤ l.length) (h : X <:+: l ++ l) :
    ∃ l1 l2, l = l1 ++ l2 ∧ X <:+: l2 ++ l1 := by
  obtain ⟨s, t, h⟩ := h
  by_cases hs : s.length ≤ l.length
  · refine ⟨l.take s.length, l.drop s.length, (List.take_append_drop _ _).symm, ?_⟩
    have e1 : s = l.take s.length := by
      have := congrArg (List.take s.length) h
      rw [List.append_assoc, List.take_left', List.take_append_of_le_length hs] at this
      · exact this
      · rfl
    have e2 : X ++ t = l.drop s.length ++ l := by
      have := congrArg (List.drop s.length) h
      rw [List.append_assoc, List.drop_left', List.drop_append_of_le_length hs] at this
      · exact this
      · rfl
    have e3 : X = (l.drop s.length ++ l).take X.length := by rw [← e2]; simp
    rw [e3]
    have e4 : (l.drop s.length ++ l).take X.length = (l.drop s.length ++ l.take s.length).take X.length := by
      conv => lhs; rw [show l.drop s.length ++ l = l.drop s.length ++ l.take s.length ++ l.drop s.length by simp]
      rw [List.take_append_of_le_length]
      simp; omega
    rw [e4]
    exact (List.take_prefix _ _).isInfix
  · refine ⟨l, [], by simp, ?_⟩
    have e2 : X ++ t = l.drop (s.length - l.length) := by
      have := congrArg (List.drop s.length) h
      rw [List.append_assoc, List.drop_left', List.drop_append, List.drop_eq_nil_of_le (by omega), List.nil_append] at this
      · exact this
      · rfl
    rw [List.nil_append]
    exact (List.prefix_append X t).isInfix.trans (e2 ▸ (List.drop_suffix _ _).isInfix)

section
variable {F : Type} [Add F] [Sub F] [Mul F] [Div F] [Zero F] [One F] [Neg F] [IntCast F]
  [LT F] [LE F] [BEq F] [DecidableLT F] [DecidableLE F]

/-- The points with the given vertex numbers. -/
def ptsOf (vertices : List (Pt F)) (A : List Int) : List (Pt F) := A.filterMap fun v => vertices[v.toNat]?

theorem ptsOf_spec {vertices : List (Pt F)} {A : List Int} (h : ∀ v ∈ A, 0 ≤ v ∧ v < vertices.length) :
    (ptsOf vertices A).length = A.length ∧
      ∀ i (hi : i < A.length), ∃ p, rdI vertices A[i] = .ok p ∧ (ptsOf vertices A)[i]? = some p := by
  induction A with
  | nil => simp [ptsOf]
  | cons v A ih =>
    obtain ⟨a, h1, h2⟩ := rdI_of_range (h v (by simp)).1 (h v (by simp)).2
    obtain ⟨ih1, ih2⟩ := ih fun w hw => h w (by simp [hw])
    have e : ptsOf vertices (v :: A) = a :: ptsOf vertices A := by simp [ptsOf, h2]
    rw [e]
    refine ⟨by simp [ih1], ?_⟩
    intro i hi
    cases i with
    | zero => exact ⟨a, h1, rfl⟩
    | succ i => exact ih2 i (by simpa using hi)

theorem ptsOf_reverse (vertices : List (Pt F)) (A : List Int) :
    ptsOf vertices A.reverse = (ptsOf vertices A).reverse := by
  unfold ptsOf; rw [List.filterMap_reverse]

end

variable {K : Type} [Field K] [LinearOrder K] [IsStrictOrderedRing K]

theorem cross_orient (a b c : Pt K) : cross (toVector a b) (toVector a c) = orient a b c := by
  unfold cross toVector orient; ring

/-- If no corner turns right, nothing changes. -/
theorem ccwLoop_keep {vertices : List (Pt K)} {ncol : Nat} {B : List Int} (hB : Row vertices.length ncol B)
    (m n i : Nat) (a b : Pt K) (hn : i + n ≤ B.length)
    (hturn : ∀ x y z, [x, y, z] <:+: a :: b :: (ptsOf vertices B).drop i → 0 ≤ orient x y z) :
    ccwLoop vertices m n i a b (padRow ncol B) = .ok (padRow ncol B) := by
  induction n generalizing i a b with
  | zero => rfl
  | succ n ih =>
    have hi : i < B.length := by omega
    obtain ⟨c, hc, hc'⟩ := (ptsOf_spec hB.range).2 i hi
    have hdrop : (ptsOf vertices B).drop i = c :: (ptsOf vertices B).drop (i + 1) := by
      obtain ⟨h1, h2⟩ := List.getElem?_eq_some_iff.1 hc'
      rw [List.drop_eq_getElem_cons h1, h2]
    unfold ccwLoop
    rw [padRow, rd_of_some (a := B[i]) (by rw [List.getElem?_append_left hi]; simp [hi]), ok_bind, hc, ok_bind]
    simp only [cross_orient]
    rw [hdrop] at hturn
    have h0 := hturn a b c ⟨[], (ptsOf vertices B).drop (i + 1), by simp⟩
    by_cases hz : orient a b c = 0
    · rw [if_pos (by simpa using hz)]
      refine ih (i + 1) b c (by omega) ?_
      intro x y z h
      exact hturn x y z (h.trans (List.suffix_cons _ _).isInfix)
    · rw [if_neg (by simpa using hz), if_neg (not_lt.2 h0)]

theorem infix_turn {l : List (Pt K)} (hl : ConvexPoly l) {x y z : Pt K} (h : [x, y, z] <:+: l ++ l) :
    0 ≤ orient x y z := by
  obtain ⟨l1, l2, rfl, h'⟩ := infix_rotation (by simpa using hl.length) h
  exact hl.append_comm.turn x y z h'.sublist

/-- Reading the last two vertices. -/
theorem ccwFace_eq {vertices : List (Pt K)} {ncol : Nat} {A : List Int} (hA : Row vertices.length ncol A) :
    ∃ l a b, ptsOf vertices A = l ++ [a, b] ∧
      ccwFace vertices (padRow ncol A) = ccwLoop vertices A.length A.length 0 a b (padRow ncol A) := by
  have h3 := hA.three
  obtain ⟨hlen, hget⟩ := ptsOf_spec hA.range
  obtain ⟨a, ha, ha'⟩ := hget (A.length - 2) (by omega)
  obtain ⟨b, hb, hb'⟩ := hget (A.length - 1) (by omega)
  refine ⟨(ptsOf vertices A).take (A.length - 2), a, b, ?_, ?_⟩
  · conv => lhs; rw [← List.take_append_drop (A.length - 2) (ptsOf vertices A)]
    congr 1
    obtain ⟨h1, h2⟩ := List.getElem?_eq_some_iff.1 ha'
    obtain ⟨h3', h4⟩ := List.getElem?_eq_some_iff.1 hb'
    rw [List.drop_eq_getElem_cons h1, h2, show A.length - 2 + 1 = A.length - 1 by omega, List.drop_eq_getElem_cons h3', h4,
      List.drop_eq_nil_of_le (by omega)]
  · have key : ∀ k (hk : k < A.length) (p : Pt K), rdI vertices A[k] = .ok p →
        (rdI (padRow ncol A) (k : Int) >>= fun v => rdI vertices v) = .ok p := by
      intro k hk p hp
      rw [rdI_nat, padRow, rd_of_some (a := A[k]) (by rw [List.getElem?_append_left hk]; simp [hk]), ok_bind, hp]
    obtain ⟨v1, q1, q1'⟩ := bind_eq_ok.1 (key _ (by omega) a ha)
    obtain ⟨v2, q2, q2'⟩ := bind_eq_ok.1 (key _ (by omega) b hb)
    unfold ccwFace
    rw [hA.polygonLength]
    simp only
    rw [show ((A.length : Int) - 2) = ((A.length - 2 : Nat) : Int) by omega,
      show ((A.length : Int) - 1) = ((A.length - 1 : Nat) : Int) by omega]
    rw [q1, ok_bind, q1', ok_bind, q2, ok_bind, q2', ok_bind]

/-- A counter-clockwise convex face stays as it is. -/
theorem ccwFace_convex {vertices : List (Pt K)} {ncol : Nat} {A : List Int} (hA : Row vertices.length ncol A)
    (hl : ConvexPoly (ptsOf vertices A)) : ccwFace vertices (padRow ncol A) = .ok (padRow ncol A) := by
  obtain ⟨l, a, b, h1, h2⟩ := ccwFace_eq hA
  rw [h2]
  apply ccwLoop_keep hA _ _ _ _ _ (by omega)
  intro x y z h
  apply infix_turn hl
  refine h.trans ?_
  rw [List.drop_zero]
  exact ⟨l, [], by simp [h1]⟩

/-- A clockwise convex face is reversed if its last corner is not straight. -/
theorem ccwFace_clockwise {vertices : List (Pt K)} {ncol : Nat} {A : List Int} (hA : Row vertices.length ncol A)
    (hl : ConvexPoly (ptsOf vertices A).reverse)
    (hlast : ∀ a b c, [a, b, c] <:+: (ptsOf vertices A).drop (A.length - 2) ++ (ptsOf vertices A).take 1 → orient a b c ≠ 0) :
    ccwFace vertices (padRow ncol A) = .ok (padRow ncol A.reverse) := by
  obtain ⟨hlen, hget⟩ := ptsOf_spec hA.range
  have h3 := hA.three
  obtain ⟨l, a, b, h1, h2⟩ := ccwFace_eq hA
  have hll : l.length = A.length - 2 := by
    have := congrArg List.length h1
    simp at this; omega
  obtain ⟨n, hn⟩ : ∃ n, A.length = n + 2 := ⟨A.length - 2, by omega⟩
  obtain ⟨c, hc, hc'⟩ := hget 0 (by omega)
  obtain ⟨l', rfl⟩ : ∃ l', l = c :: l' := by
    cases l with
    | nil => simp at hll; omega
    | cons c' l' =>
      rw [h1] at hc'
      simp at hc'
      exact ⟨l', by rw [hc']⟩
  have hneg : orient a b c < 0 := by
    have hle : orient a b c ≤ 0 := by
      have : 0 ≤ orient b a c := by
        apply hl.turn
        rw [h1]
        simp
      rw [orient_swap'] at this
      linarith
    refine lt_of_le_of_ne hle (hlast a b c ⟨[], [], ?_⟩)
    rw [h1, ← hll]
    simp
  rw [h2, hn]
  unfold ccwLoop
  rw [show padRow ncol A = A ++ List.replicate (ncol - A.length) fillValue from rfl,
    rd_of_some (a := A[0]) (by rw [List.getElem?_append_left (by omega)]; simp), ok_bind, hc, ok_bind]
  simp only [cross_orient]
  rw [if_neg (by simpa using hneg.ne), if_pos hneg, ← hn, flip_spec, ok_bind, hn]
  have hpad : A.reverse ++ List.replicate (ncol - A.length) fillValue = padRow ncol A.reverse := by simp [padRow]
  rw [← hn, hpad]
  -- the second round does nothing
  have hR := hA.reverse
  have hrl : A.reverse.length = A.length := by simp
  obtain ⟨a', ha, ha'⟩ := (ptsOf_spec hR.range).2 1 (by omega)
  have : a' = a := by
    rw [ptsOf_reverse, h1] at ha'
    simpa using ha'.symm
  subst this
  unfold ccwLoop
  rw [show padRow ncol A.reverse = A.reverse ++ List.replicate (ncol - A.reverse.length) fillValue from rfl,
    rd_of_some (a := A.reverse[1]'(by omega)) (by rw [List.getElem?_append_left (by omega), List.getElem?_eq_getElem (by omega)]), ok_bind, ha, ok_bind]
  simp only [cross_orient, orient_self_left]
  rw [if_pos (by simp)]
  refine ccwLoop_keep hR _ _ _ _ _ (by omega) ?_
  intro x y z h
  refine hl.turn x y z (h.sublist.trans ?_)
  rw [ptsOf_reverse, h1]
  simp

end Celltree
