import Verif.Proofs.ConvexPoint
import Verif.Proofs.PointTest
import Verif.Proofs.CohenSutherland
import Verif.Model.Algorithms

/-!
# Cyrus-Beck clips to convex polygons
-/

set_option linter.unusedSectionVars false

namespace Celltree

/-! ## Sides by index -/

section
variable {α : Type}

theorem mem_pairs_iff {l : List α} {s : α × α} : s ∈ pairs l ↔ ∃ j : Nat, l[j]? = some s.1 ∧ l[j + 1]? = some s.2 := by
  induction l with
  | nil => simp
  | cons a l ih =>
    cases l with
    | nil => simp
    | cons b l =>
      rw [pairs_cons_cons, List.mem_cons, ih]
      constructor
      · rintro (rfl | ⟨j, h1, h2⟩)
        · exact ⟨0, rfl, rfl⟩
        · exact ⟨j + 1, by simpa using h1, by simpa using h2⟩
      · rintro ⟨j, h1, h2⟩
        cases j with
        | zero =>
          left
          simp only [List.getElem?_cons_zero, Option.some.injEq, List.getElem?_cons_succ, zero_add] at h1 h2
          rw [h1, h2]
        | succ j => exact Or.inr ⟨j, by simpa using h1, by simpa using h2⟩

theorem mem_sides_iff {l : List α} {s : α × α} :
    s ∈ sides l ↔ ∃ j : Nat, j < l.length ∧ l[j]? = some s.1 ∧ l[(j + 1) % l.length]? = some s.2 := by
  cases l with
  | nil => simp [sides]
  | cons a l =>
    rw [sides, mem_pairs_iff]
    have hw : ∀ j, j < (a :: l).length → ((a :: l) ++ [a])[j + 1]? = (a :: l)[(j + 1) % (a :: l).length]? := by
      intro j hj
      by_cases h : j + 1 < (a :: l).length
      · rw [List.getElem?_append_left h, Nat.mod_eq_of_lt h]
      · have e : j + 1 = (a :: l).length := by omega
        rw [List.getElem?_append_right (by omega), e, Nat.mod_self, Nat.sub_self]
        rfl
    constructor
    · rintro ⟨j, h1, h2⟩
      have hj : j < (a :: l).length := by
        by_contra hj
        have : ((a :: l) ++ [a])[j + 1]? = none := by
          rw [List.getElem?_eq_none]
          simp only [List.length_append, List.length_singleton]
          omega
        rw [h2] at this
        cases this
      exact ⟨j, hj, by rwa [List.getElem?_append_left hj] at h1, by rwa [hw j hj] at h2⟩
    · rintro ⟨j, hj, h1, h2⟩
      exact ⟨j, by rwa [List.getElem?_append_left hj], by rwa [hw j hj]⟩

/-- Corners by index, going round. -/
def corner (l : List α) (h : 0 < l.length) (m : Nat) : α := l[m % l.length]'(Nat.mod_lt _ h)

theorem corner_add (l : List α) (h : 0 < l.length) : corner l h l.length = corner l h 0 := by
  unfold corner; simp

theorem rd_corner {l : List α} (h : 0 < l.length) (m : Nat) : rd l (m % l.length) = .ok (corner l h m) :=
  rd_of_lt (Nat.mod_lt _ h)

theorem rd_corner_lt {l : List α} (h : 0 < l.length) {m : Nat} (hm : m < l.length) : rd l m = .ok (corner l h m) := by
  have := rd_corner h m
  rwa [Nat.mod_eq_of_lt hm] at this

theorem side_corner {l : List α} (h : 0 < l.length) {m : Nat} (hm : m < l.length) :
    (corner l h m, corner l h (m + 1)) ∈ sides l := by
  rw [mem_sides_iff]
  refine ⟨m, hm, ?_, ?_⟩
  · rw [List.getElem?_eq_getElem hm]
    simp only [corner, Nat.mod_eq_of_lt hm]
  · rw [List.getElem?_eq_getElem (Nat.mod_lt _ h)]
    rfl

theorem side_is_corner {l : List α} (h : 0 < l.length) {s : α × α} (hs : s ∈ sides l) :
    ∃ m < l.length, s = (corner l h m, corner l h (m + 1)) := by
  obtain ⟨m, hm, h1, h2⟩ := mem_sides_iff.1 hs
  refine ⟨m, hm, ?_⟩
  rw [List.getElem?_eq_getElem hm, Option.some.injEq] at h1
  rw [List.getElem?_eq_getElem (Nat.mod_lt _ h), Option.some.injEq] at h2
  apply Prod.ext
  · rw [← h1]; simp only [corner, Nat.mod_eq_of_lt hm]
  · rw [← h2]; rfl

end

variable {K : Type} [Field K] [LinearOrder K] [IsStrictOrderedRing K]

/-! ## The scan for the sides that the line crosses -/

theorem cross_toVector (a b v : Pt K) : cross (toVector a v) (toVector a b) = - orient a b v := by
  unfold cross toVector orient; ring

section Scan
variable (a b : Pt K) (poly : List (Pt K)) (hp : 0 < poly.length)

/-- Corner `m` is on the left of the line. -/
def onLeft (m : Nat) : Bool := decide (0 < orient a b (corner poly hp m))

/-- What the scan can return. -/
def ScanOk : CbScan K → Prop
  | .collinear r => ∃ s ∈ sides poly, orient a b s.1 = 0 ∧ orient a b s.2 = 0 ∧ r = collinearCase a b s.1 s.2
  | .found k i0 i1 =>
    (k = 0 ∧ ∀ m < poly.length, onLeft a b poly hp m = onLeft a b poly hp (m + 1) ∧
      ¬ (orient a b (corner poly hp m) = 0 ∧ orient a b (corner poly hp (m + 1)) = 0)) ∨
    (k = 2 ∧ ∃ j0 j1 : Nat, i0 = j0 ∧ i1 = j1 ∧ j0 < poly.length ∧ j1 < poly.length ∧
      onLeft a b poly hp (j0 + 1) = !onLeft a b poly hp j0 ∧ onLeft a b poly hp j1 = !onLeft a b poly hp j0 ∧
      onLeft a b poly hp (j1 + 1) = onLeft a b poly hp j0)

/-- The state of the scan at index `i`. -/
def ScanInv (i k : Nat) (i0 i1 : Int) : Prop :=
  (k = 0 ∧ onLeft a b poly hp i = onLeft a b poly hp 0 ∧
    ∀ m < i, onLeft a b poly hp m = onLeft a b poly hp (m + 1) ∧
      ¬ (orient a b (corner poly hp m) = 0 ∧ orient a b (corner poly hp (m + 1)) = 0)) ∨
  (k = 1 ∧ ∃ j0 : Nat, i0 = j0 ∧ j0 < poly.length ∧ onLeft a b poly hp j0 = onLeft a b poly hp 0 ∧
    onLeft a b poly hp (j0 + 1) = !onLeft a b poly hp 0 ∧ onLeft a b poly hp i = !onLeft a b poly hp 0) ∨
  (k = 2 ∧ ∃ j0 j1 : Nat, i0 = j0 ∧ i1 = j1 ∧ j0 < poly.length ∧ j1 < poly.length ∧
      onLeft a b poly hp (j0 + 1) = !onLeft a b poly hp j0 ∧ onLeft a b poly hp j1 = !onLeft a b poly hp j0 ∧
      onLeft a b poly hp (j1 + 1) = onLeft a b poly hp j0)

theorem cbScan_spec (n i k : Nat) (i0 i1 : Int) (hi : i + n = poly.length) (hinv : ScanInv a b poly hp i k i0 i1) :
    ∃ r, cbScan a b (toVector a b) poly n i k i0 i1 (cross (toVector a (corner poly hp i)) (toVector a b)) = .ok r ∧
      ScanOk a b poly hp r := by
  induction n generalizing i k i0 i1 with
  | zero =>
    refine ⟨_, rfl, ?_⟩
    obtain rfl : i = poly.length := by omega
    have e : onLeft a b poly hp poly.length = onLeft a b poly hp 0 := by unfold onLeft; rw [corner_add]
    rcases hinv with ⟨h0, _, h1⟩ | ⟨_, j0, _, _, _, _, h5⟩ | h
    · exact Or.inl ⟨h0, h1⟩
    · rw [e] at h5
      cases h : onLeft a b poly hp 0 <;> rw [h] at h5 <;> cases h5
    · exact Or.inr h
  | succ n ih =>
    unfold cbScan
    by_cases hk : k < 2
    · rw [if_pos hk]
      have hil : i < poly.length := by omega
      rw [rd_corner_lt hp hil, ok_bind, rd_corner hp (i + 1), ok_bind]
      have hneg : ∀ m, decide (cross (toVector a (corner poly hp m)) (toVector a b) < 0) = onLeft a b poly hp m := by
        intro m; unfold onLeft; rw [cross_toVector]; simp
      have hz : ∀ m, (cross (toVector a (corner poly hp m)) (toVector a b) == 0) =
          decide (orient a b (corner poly hp m) = 0) := by
        intro m; rw [cross_toVector, Bool.eq_iff_iff]; simp
      simp only [hneg, hz]
      by_cases hc : onLeft a b poly hp i = onLeft a b poly hp (i + 1)
      · have hc' : (onLeft a b poly hp i != onLeft a b poly hp (i + 1)) = false := by simp [hc]
        rw [hc']
        simp only [Bool.false_eq_true, if_false]
        by_cases hcol : orient a b (corner poly hp i) = 0 ∧ orient a b (corner poly hp (i + 1)) = 0
        · rw [if_pos (by simpa using hcol)]
          exact ⟨_, rfl, _, side_corner hp hil, hcol.1, hcol.2, rfl⟩
        · rw [if_neg (by simpa using hcol)]
          apply ih
          · omega
          · rcases hinv with ⟨h0, h1, h2⟩ | ⟨h0, j0, h1, h2, h3, h4, h5⟩ | ⟨h0, _⟩
            · refine Or.inl ⟨h0, hc ▸ h1, ?_⟩
              intro m hm
              rcases Nat.lt_succ_iff_lt_or_eq.1 hm with h | rfl
              · exact h2 m h
              · exact ⟨hc, hcol⟩
            · exact Or.inr (Or.inl ⟨h0, j0, h1, h2, h3, h4, hc ▸ h5⟩)
            · omega
      · have hc' : (onLeft a b poly hp i != onLeft a b poly hp (i + 1)) = true := by simpa using hc
        have hnot : onLeft a b poly hp (i + 1) = !onLeft a b poly hp i := by
          cases h1 : onLeft a b poly hp i <;> cases h2 : onLeft a b poly hp (i + 1) <;> simp_all
        rw [hc']
        simp only [if_true]
        by_cases hk0 : k = 0
        · rw [if_pos hk0]
          apply ih
          · omega
          · rcases hinv with ⟨h0, h1, h2⟩ | ⟨h0, _⟩ | ⟨h0, _⟩
            · refine Or.inr (Or.inl ⟨by omega, i, rfl, hil, h1, ?_, ?_⟩) <;> rw [hnot, h1]
            · omega
            · omega
        · rw [if_neg hk0]
          apply ih
          · omega
          · rcases hinv with ⟨h0, h1, h2⟩ | ⟨h0, j0, h1, h2, h3, h4, h5⟩ | ⟨h0, _⟩
            · omega
            · refine Or.inr (Or.inr ⟨by omega, j0, i, h1, rfl, h2, hil, by rw [h4, h3], by rw [h5, h3], ?_⟩)
              rw [hnot, h5, h3, Bool.not_not]
            · omega
    · rw [if_neg hk]
      refine ⟨_, rfl, ?_⟩
      rcases hinv with ⟨h0, h1, h2⟩ | ⟨h0, _⟩ | h
      · omega
      · omega
      · exact Or.inr h

end Scan

/-! ## Intersections with the sides -/

theorem computeIntersection_eq (a b : Pt K) {v0 v1 : Pt K} (h : orient a b v0 ≠ orient a b v1) :
    ∃ e, computeIntersection a (toVector a b) v0 v1 =
      .ok (e, orient v0 v1 a / (orient v0 v1 a - orient v0 v1 b)) := by
  unfold computeIntersection
  have hk : dot (⟨-(v1.y - v0.y), v1.x - v0.x⟩ : Pt K) (toVector a b) = - (orient v0 v1 a - orient v0 v1 b) := by
    unfold dot toVector orient; ring
  have hd : orient v0 v1 a - orient v0 v1 b = orient a b v1 - orient a b v0 := by unfold orient; ring
  have hn : dot (⟨-(v1.y - v0.y), v1.x - v0.x⟩ : Pt K) (toVector a v0) = - orient v0 v1 a := by
    unfold dot toVector orient; ring
  have hne : orient v0 v1 a - orient v0 v1 b ≠ 0 := by rw [hd]; exact sub_ne_zero.2 (Ne.symm h)
  simp only [hk, hn]
  rw [fdiv_eq (neg_ne_zero.2 hne), ok_bind]
  exact ⟨_, by rw [neg_div_neg_eq]⟩

theorem cbIntersections_eq (a b : Pt K) {poly : List (Pt K)} (hp : 0 < poly.length) {j0 j1 : Nat} (h0 : j0 < poly.length)
    (h1 : j1 < poly.length) (g0 : orient a b (corner poly hp j0) ≠ orient a b (corner poly hp (j0 + 1)))
    (g1 : orient a b (corner poly hp j1) ≠ orient a b (corner poly hp (j1 + 1))) :
    ∃ t0 t1, cbIntersections a (toVector a b) poly j0 j1 = .ok (t0, t1) ∧
      ((t0, t1) = (orient (corner poly hp j0) (corner poly hp (j0 + 1)) a /
          (orient (corner poly hp j0) (corner poly hp (j0 + 1)) a - orient (corner poly hp j0) (corner poly hp (j0 + 1)) b),
        orient (corner poly hp j1) (corner poly hp (j1 + 1)) a /
          (orient (corner poly hp j1) (corner poly hp (j1 + 1)) a - orient (corner poly hp j1) (corner poly hp (j1 + 1)) b)) ∨
      (t1, t0) = (orient (corner poly hp j0) (corner poly hp (j0 + 1)) a /
          (orient (corner poly hp j0) (corner poly hp (j0 + 1)) a - orient (corner poly hp j0) (corner poly hp (j0 + 1)) b),
        orient (corner poly hp j1) (corner poly hp (j1 + 1)) a /
          (orient (corner poly hp j1) (corner poly hp (j1 + 1)) a - orient (corner poly hp j1) (corner poly hp (j1 + 1)) b))) := by
  unfold cbIntersections
  have hm : ∀ j : Nat, ((j : Int) + 1) % (poly.length : Int) = (((j + 1) % poly.length : Nat) : Int) := by
    intro j; push_cast; rfl
  simp only [hm, rdI_nat]
  rw [rd_corner_lt hp h0, ok_bind, rd_corner hp, ok_bind, rd_corner_lt hp h1, ok_bind, rd_corner hp, ok_bind]
  obtain ⟨e0, i0⟩ := computeIntersection_eq a b g0
  obtain ⟨e1, i1⟩ := computeIntersection_eq a b g1
  rw [i0, ok_bind, i1, ok_bind]
  cases e1
  · exact ⟨_, _, rfl, Or.inl rfl⟩
  · exact ⟨_, _, rfl, Or.inr rfl⟩

theorem onLeft_ne {a b : Pt K} {poly : List (Pt K)} {hp : 0 < poly.length} {j j' : Nat}
    (h : onLeft a b poly hp j' = !onLeft a b poly hp j) :
    orient a b (corner poly hp j) ≠ orient a b (corner poly hp j') := by
  intro e
  unfold onLeft at h
  rw [e] at h
  cases hd : decide (0 < orient a b (corner poly hp j')) <;> rw [hd] at h <;> cases h

theorem toVector_zero (a b : Pt K) : ((toVector a b).x == 0 && (toVector a b).y == 0) = true ↔ a = b := by
  unfold toVector; exact eqv_zero a b

/-- The clip never fails, whatever the polygon. -/
theorem cyrusBeck_total (a b : Pt K) {poly : List (Pt K)} (hne : poly ≠ []) (tol : K) :
    ∃ r, cyrusBeck a b poly tol = .ok r := by
  have hp : 0 < poly.length := List.length_pos_iff.2 hne
  unfold cyrusBeck
  by_cases hab : a = b
  · simp only [(toVector_zero a b).2 hab, if_true]
    exact ⟨_, rfl⟩
  · have : ¬ ((toVector a b).x == 0 && (toVector a b).y == 0) = true := fun h => hab ((toVector_zero a b).1 h)
    simp only [this]
    obtain ⟨ba, h1, _⟩ := pointInPolygonOrOnEdge_eq a hne tol
    obtain ⟨bb, h2, _⟩ := pointInPolygonOrOnEdge_eq b hne tol
    rw [if_neg (by simp), h1, ok_bind, h2, ok_bind]
    split
    · exact ⟨_, rfl⟩
    · rw [rd_corner_lt hp hp, ok_bind]
      obtain ⟨r, h3, h4⟩ := cbScan_spec a b poly hp poly.length 0 0 (-1) (-1) (by omega)
        (Or.inl ⟨rfl, rfl, fun m hm => by omega⟩)
      rw [h3, ok_bind]
      match r, h4 with
      | .collinear r, _ => exact ⟨_, rfl⟩
      | .found k i0 i1, h4 =>
        rcases h4 with ⟨rfl, _⟩ | ⟨rfl, j0, j1, rfl, rfl, l0, l1, c0, c1, c2⟩
        · exact ⟨_, rfl⟩
        · obtain ⟨t0, t1, g, _⟩ := cbIntersections_eq a b hp l0 l1 (onLeft_ne c0)
            (onLeft_ne (by rw [c2, c1, Bool.not_not]))
          simp only [two_ne_zero, if_false, g, ok_bind]
          exact ⟨_, rfl⟩

/-! ## The line crosses two sides -/

theorem along_normal (a b v : Pt K) : along ⟨-(b.y - a.y), b.x - a.x⟩ v = along ⟨-(b.y - a.y), b.x - a.x⟩ a + orient a b v := by
  unfold along orient; ring

theorem along_normal_lineAt (a b : Pt K) (u : K) :
    along ⟨-(b.y - a.y), b.x - a.x⟩ (lineAt a b u) = along ⟨-(b.y - a.y), b.x - a.x⟩ a := by
  unfold along lineAt; ring

theorem normal_ne {a b : Pt K} (h : a ≠ b) :
    (⟨-(b.y - a.y), b.x - a.x⟩ : Pt K).x ≠ 0 ∨ (⟨-(b.y - a.y), b.x - a.x⟩ : Pt K).y ≠ 0 := by
  by_contra hh
  push Not at hh
  simp only [neg_eq_zero] at hh
  exact h (Pt.ext' (by linarith [hh.2]) (by linarith [hh.1]))

/-- The parameter at which the line meets a side. -/
def hitAt (a b : Pt K) (s : Pt K × Pt K) : K := orient s.1 s.2 a / (orient s.1 s.2 a - orient s.1 s.2 b)

theorem orient_hit (a b : Pt K) (s : Pt K × Pt K) (u : K) :
    orient s.1 s.2 (lineAt a b u) = orient s.1 s.2 a - u * (orient a b s.2 - orient a b s.1) := by
  unfold orient lineAt; ring

theorem hitAt_den (a b : Pt K) (s : Pt K × Pt K) :
    orient s.1 s.2 a - orient s.1 s.2 b = orient a b s.2 - orient a b s.1 := by
  unfold orient; ring

theorem up_iff {a b : Pt K} {s : Pt K × Pt K} (h : orient a b s.1 < orient a b s.2) (u : K) :
    0 ≤ orient s.1 s.2 (lineAt a b u) ↔ u ≤ hitAt a b s := by
  have hd : 0 < orient a b s.2 - orient a b s.1 := sub_pos.2 h
  unfold hitAt
  rw [hitAt_den, orient_hit, le_div_iff₀ hd]
  constructor <;> intro <;> linarith

theorem down_iff {a b : Pt K} {s : Pt K × Pt K} (h : orient a b s.2 < orient a b s.1) (u : K) :
    0 ≤ orient s.1 s.2 (lineAt a b u) ↔ hitAt a b s ≤ u := by
  have hd : orient a b s.2 - orient a b s.1 < 0 := sub_neg.2 h
  unfold hitAt
  rw [hitAt_den, orient_hit, div_le_iff_of_neg hd]
  constructor <;> intro <;> linarith

theorem ConvexPoly.line_piece {l : List (Pt K)} (hl : ConvexPoly l) {a b : Pt K} (hab : a ≠ b) {U D : Pt K × Pt K}
    (hU : U ∈ sides l) (hD : D ∈ sides l) (u1 : orient a b U.1 ≤ 0) (u2 : 0 < orient a b U.2) (d1 : 0 < orient a b D.1)
    (d2 : orient a b D.2 ≤ 0) :
    (∀ u, InPoly l (lineAt a b u) ↔ hitAt a b D ≤ u ∧ u ≤ hitAt a b U) ∧ hitAt a b D ≤ hitAt a b U := by
  have hup : orient a b U.1 < orient a b U.2 := lt_of_le_of_lt u1 u2
  have hdn : orient a b D.2 < orient a b D.1 := lt_of_le_of_lt d2 d1
  have hd := normal_ne hab
  have e := along_normal a b
  have lev : ∀ u v, along ⟨-(b.y - a.y), b.x - a.x⟩ v ≤ along ⟨-(b.y - a.y), b.x - a.x⟩ (lineAt a b u) ↔ orient a b v ≤ 0 := by
    intro u v; rw [along_normal_lineAt, e v]; constructor <;> intro <;> linarith
  have lev' : ∀ u v, along ⟨-(b.y - a.y), b.x - a.x⟩ (lineAt a b u) ≤ along ⟨-(b.y - a.y), b.x - a.x⟩ v ↔ 0 ≤ orient a b v := by
    intro u v; rw [along_normal_lineAt, e v]; constructor <;> intro <;> linarith
  have lt' : ∀ v w, along ⟨-(b.y - a.y), b.x - a.x⟩ v < along ⟨-(b.y - a.y), b.x - a.x⟩ w ↔ orient a b v < orient a b w := by
    intro v w; rw [e v, e w]; constructor <;> intro <;> linarith
  constructor
  · intro u
    rw [hl.chord hd hU hD ((lev u _).2 u1) ((lev' u _).2 u2.le) ((lt' _ _).2 hup) ((lev u _).2 d2) ((lev' u _).2 d1.le)
      ((lt' _ _).2 hdn), up_iff hup, down_iff hdn, and_comm]
  · by_contra hlt
    push Not at hlt
    obtain ⟨u, h1, h2⟩ : ∃ u, hitAt a b U < u ∧ u < hitAt a b D :=
      ⟨(hitAt a b U + hitAt a b D) / 2, by linarith, by linarith⟩
    rcases hl.not_outside_both hd hU hD (p := lineAt a b u) ((lev u _).2 u1) ((lev' u _).2 u2.le) ((lt' _ _).2 hup)
      ((lev u _).2 d2) ((lev' u _).2 d1.le) ((lt' _ _).2 hdn) with h | h
    · have := (up_iff hup u).1 h.le; linarith
    · have := (down_iff hdn u).1 h; linarith

theorem toPoint_eq (a b : Pt K) (t : K) : toPoint t a (toVector a b) = lineAt a b t := rfl

/-- A line that has a piece of positive length in the set: the answer does not depend on the tests of the ends. -/
theorem cbFinish_proper {a b : Pt K} {S : Pt K → Prop} {lo hi : K} (hlt : lo < hi)
    (hS : ∀ u, S (lineAt a b u) ↔ lo ≤ u ∧ u ≤ hi) (aIn bIn : Bool) (hnot : ¬ (lo ≤ 0 ∧ 1 ≤ hi)) {t0 t1 : K}
    (ht : (t0, t1) = (lo, hi) ∨ (t0, t1) = (hi, lo)) :
    ClipSpec a b S (cbFinish a b (toVector a b) aIn bIn t0 t1) := by
  have hne : (t0 == t1) = false := by
    rw [beq_eq_false_iff_ne]
    rcases ht with h | h <;> simp only [Prod.mk.injEq] at h <;> rw [h.1, h.2]
    · exact hlt.ne
    · exact hlt.ne'
  have hord : (if t1 < t0 then (t1, t0) else (t0, t1)) = (lo, hi) := by
    rcases ht with h | h <;> simp only [Prod.mk.injEq] at h <;> rw [h.1, h.2]
    · rw [if_neg (not_lt.2 hlt.le)]
    · rw [if_pos hlt]
  unfold cbFinish
  simp only [hne, Bool.false_eq_true, if_false, hord, toPoint_eq]
  by_cases v0 : lo ≥ 0 ∧ lo < 1
  · have v0' : (decide (lo ≥ 0) && decide (lo < 1)) = true := by simpa using v0
    by_cases v1 : hi > 0 ∧ hi ≤ 1
    · have v1' : (decide (hi > 0) && decide (hi ≤ 1)) = true := by simpa using v1
      simp only [v0', v1', Bool.and_self, if_true]
      exact ⟨lo, hi, v0.1, hlt, v1.2, rfl, rfl, fun u _ _ => hS u⟩
    · have v1' : (decide (hi > 0) && decide (hi ≤ 1)) = false := by simpa using v1
      simp only [v0', v1', Bool.and_false, Bool.false_eq_true, if_false, if_true]
      have : 1 < hi := by
        by_contra h
        exact v1 ⟨by linarith [v0.1], not_lt.1 h⟩
      refine ⟨lo, 1, v0.1, v0.2, le_refl _, rfl, (lineAt_one a b).symm, fun u _ hu => ?_⟩
      rw [hS u]
      constructor <;> intro h <;> exact ⟨h.1, by linarith⟩
  · have v0' : (decide (lo ≥ 0) && decide (lo < 1)) = false := by simpa using v0
    by_cases v1 : hi > 0 ∧ hi ≤ 1
    · have v1' : (decide (hi > 0) && decide (hi ≤ 1)) = true := by simpa using v1
      simp only [v0', v1', Bool.false_and, Bool.false_eq_true, if_false, if_true]
      have : lo < 0 := by
        by_contra h
        exact v0 ⟨not_lt.1 h, by linarith [v1.2]⟩
      refine ⟨0, hi, le_refl _, v1.1, v1.2, (lineAt_zero a b).symm, rfl, fun u hu _ => ?_⟩
      rw [hS u]
      constructor <;> intro h <;> exact ⟨by linarith, h.2⟩
    · have v1' : (decide (hi > 0) && decide (hi ≤ 1)) = false := by simpa using v1
      simp only [v0', v1', Bool.and_false, Bool.false_eq_true, if_false]
      intro u v hu huv hv hSu hSv
      have p := (hS u).1 hSu
      have q := (hS v).1 hSv
      have hpos : 0 < hi := by linarith [q.2]
      have h1 : 1 < hi := by
        by_contra h
        exact v1 ⟨hpos, not_lt.1 h⟩
      have hlo : lo < 1 := by linarith [p.1]
      have : lo < 0 := by
        by_contra h
        exact v0 ⟨not_lt.1 h, hlo⟩
      exact hnot ⟨this.le, h1.le⟩

theorem cbFinish_spec {a b : Pt K} {S : Pt K → Prop} {lo hi : K} (hle : lo ≤ hi)
    (hS : ∀ u, S (lineAt a b u) ↔ lo ≤ u ∧ u ≤ hi) {aIn bIn : Bool} (ha : aIn = true ↔ S a) (hb : bIn = true ↔ S b)
    (hab : ¬ (aIn && bIn) = true) {t0 t1 : K} (ht : (t0, t1) = (lo, hi) ∨ (t0, t1) = (hi, lo)) :
    ClipSpec a b S (cbFinish a b (toVector a b) aIn bIn t0 t1) := by
  have ha' : aIn = true ↔ lo ≤ 0 ∧ 0 ≤ hi := by rw [ha, ← hS 0, lineAt_zero]
  have hb' : bIn = true ↔ lo ≤ 1 ∧ 1 ≤ hi := by rw [hb, ← hS 1, lineAt_one]
  have hnot : ¬ (lo ≤ 0 ∧ 1 ≤ hi) := by
    rintro ⟨h1, h2⟩
    exact hab (by rw [Bool.and_eq_true, ha', hb']; exact ⟨⟨h1, by linarith⟩, ⟨by linarith, h2⟩⟩)
  by_cases heq : lo = hi
  · -- a single point
    subst heq
    have e : t0 = lo ∧ t1 = lo := by
      rcases ht with h | h <;> simpa using h
    obtain ⟨rfl, rfl⟩ := e
    unfold cbFinish
    simp only [beq_self_eq_true, if_true]
    have h1 : (aIn && !(t1 == 0)) = false := by
      cases h : aIn with
      | false => rfl
      | true =>
        have := ha'.1 h
        have : t1 = 0 := le_antisymm this.1 this.2
        simp [this]
    have h2 : (bIn && !(t1 == 1)) = false := by
      cases h : bIn with
      | false => rfl
      | true =>
        have := hb'.1 h
        have : t1 = 1 := le_antisymm this.1 this.2
        simp [this]
    rw [h1, h2]
    simp only [Bool.false_eq_true, if_false]
    apply ClipSpec.of_point t1
    intro v _ _ hv
    exact le_antisymm ((hS v).1 hv).2 ((hS v).1 hv).1
  · exact cbFinish_proper (lt_of_le_of_ne hle heq) hS aIn bIn hnot ht

/-! ## The line crosses no side -/

/-- A corner on a line that has the polygon on one side is the only point of the polygon on the line, if neither side at it
is on the line. -/
theorem ConvexPoly.only_corner {l : List (Pt K)} (hl : ConvexPoly l) {d : Pt K} (hd : d.x ≠ 0 ∨ d.y ≠ 0) {v : Pt K}
    (hv : v ∈ l) (hall : ∀ w ∈ l, along d w ≤ along d v)
    (hside : ∀ s ∈ sides l, ¬ (along d s.1 = along d v ∧ along d s.2 = along d v)) {p : Pt K} (hp : InPoly l p)
    (hpv : along d p = along d v) : p = v := by
  have hN := norm_pos hd
  obtain ⟨w, hw, _⟩ := hl.side_from hv
  obtain ⟨w', hw', _⟩ := hl.side_to hv
  have lw : along d w < along d v :=
    lt_of_le_of_ne (hall w (mem_sides_mem hw).2) fun e => hside _ hw ⟨rfl, e⟩
  have lw' : along d w' < along d v :=
    lt_of_le_of_ne (hall w' (mem_sides_mem hw').1) fun e => hside _ hw' ⟨e, rfl⟩
  have h1 := mul_nonneg hN.le (hp _ hw)
  have h2 := mul_nonneg hN.le (hp _ hw')
  simp only at h1 h2
  rw [orient_along_across d, hpv] at h1 h2
  apply along_across_inj hd hpv
  apply le_antisymm
  · by_contra hlt
    push Not at hlt
    have := mul_pos (sub_pos.2 lw) (sub_pos.2 hlt)
    linarith
  · by_contra hlt
    push Not at hlt
    have := mul_pos (sub_pos.2 lw') (sub_pos.2 hlt)
    linarith

theorem ConvexPoly.no_crossing {l : List (Pt K)} (hl : ConvexPoly l) {a b : Pt K} (hab : a ≠ b)
    (hc : ∀ s ∈ sides l, (0 < orient a b s.1 ↔ 0 < orient a b s.2) ∧ ¬ (orient a b s.1 = 0 ∧ orient a b s.2 = 0)) :
    ClipSpec a b (InPoly l) none := by
  intro u v hu huv hv hSu hSv
  have hd := normal_ne hab
  have e := along_normal a b
  have hconst := fun {v w} (hv : v ∈ l) (hw : w ∈ l) =>
    const_sides (fun v => decide (0 < orient a b v)) (fun s hs => by rw [Bool.eq_iff_iff]; simpa using (hc s hs).1) hv hw
  obtain ⟨w, hw, hle⟩ := hl.exists_le hSu hd
  rw [along_normal_lineAt, e w] at hle
  have hall : ∀ x ∈ l, orient a b x ≤ 0 := by
    intro x hx
    have := hconst hx hw
    have hw0 : ¬ 0 < orient a b w := by linarith
    simp only [hw0, decide_false, decide_eq_false_iff_not] at this
    exact not_lt.1 this
  obtain ⟨z, hz, hge⟩ := hl.exists_ge hSu hd
  rw [along_normal_lineAt, e z] at hge
  have hz0 : orient a b z = 0 := le_antisymm (hall z hz) (by linarith)
  have key : ∀ t, InPoly l (lineAt a b t) → lineAt a b t = z := by
    intro t ht
    apply hl.only_corner hd hz (p := lineAt a b t) _ _ ht
    · rw [along_normal_lineAt, e z, hz0, add_zero]
    · intro w hw
      rw [e w, e z, hz0]
      linarith [hall w hw]
    · rintro s hs ⟨h1, h2⟩
      rw [e, e z, hz0] at h1 h2
      exact (hc s hs).2 ⟨by linarith, by linarith⟩
  have := lineAt_inj hab ((key u hSu).trans (key v hSv).symm)
  linarith

/-! ## The line goes along a side -/

theorem ConvexPoly.not_back {l : List (Pt K)} (hl : ConvexPoly l) {v w : Pt K} (h1 : (v, w) ∈ sides l)
    (h2 : (w, v) ∈ sides l) (hne : v ≠ w) : False := by
  apply hl.not_collinear hne
  intro x hx
  have a1 := hl.support h1 hx
  have a2 := hl.support h2 hx
  simp only at a1 a2
  rw [orient_swap'] at a2
  linarith

theorem ConvexPoly.line_on_side {l : List (Pt K)} (hl : ConvexPoly l) {v w : Pt K} (hs : (v, w) ∈ sides l) (hne : v ≠ w)
    (honly : ∀ x ∈ l, orient v w x = 0 → x = v ∨ x = w) {p : Pt K} (hp : InPoly l p) (h0 : orient v w p = 0) :
    ∃ u, 0 ≤ u ∧ u ≤ 1 ∧ p = lineAt v w u := by
  set e : Pt K := ⟨w.x - v.x, w.y - v.y⟩ with he
  have hd : e.x ≠ 0 ∨ e.y ≠ 0 := by
    by_contra hh
    push Not at hh
    simp only [he] at hh
    exact hne (Pt.ext' (by linarith [hh.1]) (by linarith [hh.2]))
  have hN := norm_pos hd
  have hac : ∀ x, orient v w x = across e x - across e v := by
    intro x; simp only [he, orient, across]; ring
  have hlev : across e w = across e v := by
    have := hac w; rw [orient_self_right] at this; linarith
  have hlt : along e v < along e w := by
    have : along e w - along e v = e.x ^ 2 + e.y ^ 2 := by simp only [he, along]; ring
    linarith
  have hp0 : across e p = across e v := by rw [hac] at h0; linarith
  obtain ⟨mv, mw⟩ := mem_sides_mem hs
  simp only at mv mw
  -- the next corner is off the line
  have off : ∀ x ∈ l, x ≠ v → x ≠ w → across e v < across e x := by
    intro x hx h1 h2
    have := hl.support hs hx
    simp only at this
    rcases lt_or_eq_of_le this with h | h
    · rw [hac] at h; linarith
    · rcases honly x hx h.symm with h | h
      · exact (h1 h).elim
      · exact (h2 h).elim
  obtain ⟨x, hx, hxw⟩ := hl.side_from mw
  obtain ⟨y, hy, hyv⟩ := hl.side_to mv
  have ox := off x (mem_sides_mem hx).2 (fun h => by subst h; exact hl.not_back hs hx hne) hxw
  have oy := off y (mem_sides_mem hy).1 hyv (fun h => by subst h; exact hl.not_back hs hy hne)
  have h1 := mul_nonneg hN.le (hp _ hx)
  have h2 := mul_nonneg hN.le (hp _ hy)
  simp only at h1 h2
  rw [orient_along_across e, hp0, hlev] at h1
  rw [orient_from e, hp0] at h2
  have l1 : along e p ≤ along e w := by
    by_contra hh
    push Not at hh
    have := mul_pos (sub_pos.2 ox) (sub_pos.2 hh)
    linarith
  have l2 : along e v ≤ along e p := by
    by_contra hh
    push Not at hh
    have := mul_pos (sub_pos.2 oy) (sub_pos.2 hh)
    linarith
  obtain ⟨u, u0, u1, u2⟩ := at_level e l2 l1 hlt
  refine ⟨u, u0, u1, along_across_inj hd u2.symm ?_⟩
  rw [across_lineAt, hlev, hp0]; ring

theorem aligned_eq {s : Pt K} (hs : s.x ≠ 0 ∨ s.y ≠ 0) {c : K} (hc : c ≠ 0) :
    aligned s ⟨c * s.x, c * s.y⟩ = decide (0 < c) := by
  unfold aligned
  have key : ∀ z : K, z ≠ 0 → (decide (z > 0) == decide (c * z > 0)) = decide (0 < c) := by
    intro z hz
    rw [Bool.eq_iff_iff, beq_iff_eq, decide_eq_decide, decide_eq_true_iff]
    rcases lt_or_gt_of_ne hz with h | h
    · constructor
      · intro e
        by_contra hn
        have hc' : c < 0 := lt_of_le_of_ne (not_lt.1 hn) hc
        have := e.2 (mul_pos_of_neg_of_neg hc' h)
        linarith
      · intro h0
        have := mul_neg_of_pos_of_neg h0 h
        exact ⟨fun h' => by linarith, fun h' => by linarith⟩
    · constructor
      · intro e
        exact (mul_pos_iff_of_pos_right h).1 (e.1 h)
      · intro h0
        exact ⟨fun _ => mul_pos h0 h, fun _ => h⟩
  by_cases hx : s.x = 0
  · have hy : s.y ≠ 0 := hs.resolve_left (fun h => h hx)
    have h1 : (s.y == 0) = false := by simpa using hy
    have h2 : (c * s.y == 0) = false := by simpa using ⟨hc, hy⟩
    simp only [hx, mul_zero, beq_self_eq_true, h1, h2, Bool.and_false, Bool.or_self, Bool.false_eq_true, if_false,
      Bool.not_true, Bool.not_false, Bool.and_self, if_true, key _ hy]
  · have h1 : (s.x == 0) = false := by simpa using hx
    have h2 : (c * s.x == 0) = false := by simpa using ⟨hc, hx⟩
    simp only [h1, h2, Bool.false_and, Bool.or_self, Bool.false_eq_true, if_false, Bool.not_false, Bool.and_self, if_true,
      key _ hx]

theorem cbOverlap_iff {N lo hi : K} (hN : 0 < N) (h : lo < hi) :
    cbOverlap 0 (-N) (-(N * lo)) (-(N * hi)) = decide (max 0 lo < min 1 hi) := by
  have h1 : (0 : K) > -N := by linarith
  have h2 : -(N * lo) > -(N * hi) := by have := mul_lt_mul_of_pos_left h hN; linarith
  unfold cbOverlap
  rw [if_pos h1, if_pos h2]
  simp only [fmin_eq, fmax_eq]
  rw [Bool.eq_iff_iff, decide_eq_true_iff, decide_eq_true_iff]
  have e1 : min (0 : K) (-(N * lo)) = -(N * max 0 lo) := by
    rcases le_total 0 lo with h | h
    · rw [max_eq_right h, min_eq_right]
      have := mul_nonneg hN.le h; linarith
    · rw [max_eq_left h, min_eq_left, mul_zero, neg_zero]
      have := mul_nonpos_of_nonneg_of_nonpos hN.le h; linarith
  have e2 : max (-N) (-(N * hi)) = -(N * min 1 hi) := by
    rcases le_total 1 hi with h | h
    · rw [min_eq_left h, max_eq_left, mul_one]
      have := mul_le_mul_of_nonneg_left h hN.le; linarith
    · rw [min_eq_right h, max_eq_right]
      have := mul_le_mul_of_nonneg_left h hN.le; linarith
  rw [e1, e2]
  have e3 : -(N * max 0 lo) - -(N * min 1 hi) = N * (min 1 hi - max 0 lo) := by ring
  rw [e3, gt_iff_lt, lt_max_iff, mul_pos_iff_of_pos_left hN, sub_pos]
  simp

theorem collinearCase_spec {a b : Pt K} (hab : a ≠ b) {S : Pt K → Prop} {τ₀ τ₁ : K} (hne : τ₀ ≠ τ₁)
    (hS : ∀ u, S (lineAt a b u) ↔ min τ₀ τ₁ ≤ u ∧ u ≤ max τ₀ τ₁) :
    ClipSpec a b S (collinearCase a b (lineAt a b τ₀) (lineAt a b τ₁)) := by
  have hd : b.x - a.x ≠ 0 ∨ b.y - a.y ≠ 0 := by
    by_contra hh
    push Not at hh
    exact hab (Pt.ext' (by linarith [hh.1]) (by linarith [hh.2]))
  have hN : 0 < (b.x - a.x) ^ 2 + (b.y - a.y) ^ 2 := norm_pos (d := ⟨b.x - a.x, b.y - a.y⟩) hd
  have hal := aligned_eq (s := ⟨b.x - a.x, b.y - a.y⟩) hd (sub_ne_zero.2 (Ne.symm hne))
  have hV : toVector (⟨(lineAt a b τ₀).x - a.x, (lineAt a b τ₀).y - a.y⟩ : Pt K)
      ⟨(lineAt a b τ₁).x - a.x, (lineAt a b τ₁).y - a.y⟩ = ⟨(τ₁ - τ₀) * (b.x - a.x), (τ₁ - τ₀) * (b.y - a.y)⟩ := by
    unfold toVector lineAt
    exact Pt.ext' (by simp only; ring) (by simp only; ring)
  have hcross : ∀ τ, cross (⟨-(b.y - a.y), b.x - a.x⟩ : Pt K) ⟨(lineAt a b τ).x - a.x, (lineAt a b τ).y - a.y⟩ =
      -(((b.x - a.x) ^ 2 + (b.y - a.y) ^ 2) * τ) := by
    intro τ; unfold cross lineAt; ring
  have hcb : cross (⟨-(b.y - a.y), b.x - a.x⟩ : Pt K) ⟨b.x - a.x, b.y - a.y⟩ = -((b.x - a.x) ^ 2 + (b.y - a.y) ^ 2) := by
    unfold cross; ring
  -- after sorting the ends of the side
  have main : ∀ lo hi : K, lo < hi → (∀ u, S (lineAt a b u) ↔ lo ≤ u ∧ u ≤ hi) →
      ClipSpec a b S (if (!cbOverlap 0 (-((b.x - a.x) ^ 2 + (b.y - a.y) ^ 2)) (-(((b.x - a.x) ^ 2 + (b.y - a.y) ^ 2) * lo))
        (-(((b.x - a.x) ^ 2 + (b.y - a.y) ^ 2) * hi))) = true then none else
        some (if -(((b.x - a.x) ^ 2 + (b.y - a.y) ^ 2) * lo) < 0 then lineAt a b lo else a,
          if -(((b.x - a.x) ^ 2 + (b.y - a.y) ^ 2) * hi) > -((b.x - a.x) ^ 2 + (b.y - a.y) ^ 2) then lineAt a b hi else b)) := by
    intro lo hi hlt hS
    generalize (b.x - a.x) ^ 2 + (b.y - a.y) ^ 2 = N at hN
    rw [cbOverlap_iff hN hlt]
    have c1 : -(N * lo) < 0 ↔ 0 < lo := by rw [neg_lt_zero, mul_pos_iff_of_pos_left hN]
    have c2 : -(N * hi) > -N ↔ hi < 1 := by
      rw [gt_iff_lt, neg_lt_neg_iff]
      conv_lhs => rw [← mul_one N, mul_assoc, one_mul]
      exact mul_lt_mul_iff_right₀ hN
    simp only [c1, c2]
    by_cases ho : max 0 lo < min 1 hi
    · rw [if_neg (by simp only [ho]; decide)]
      refine ⟨max 0 lo, min 1 hi, le_max_left _ _, ho, min_le_left _ _, ?_, ?_, ?_⟩
      · split
        · next h => rw [max_eq_right h.le]
        · next h => rw [max_eq_left (not_lt.1 h), lineAt_zero]
      · split
        · next h => rw [min_eq_right h.le]
        · next h => rw [min_eq_left (not_lt.1 h), lineAt_one]
      · intro u h0 h1
        rw [hS u, max_le_iff, le_min_iff]
        tauto
    · rw [if_pos (by simp only [ho]; decide)]
      intro u v hu huv hv hSu hSv
      have p := (hS u).1 hSu
      have q := (hS v).1 hSv
      exact ho (lt_of_le_of_lt (max_le hu p.1) (lt_of_lt_of_le huv (le_min hv q.2)))
  unfold collinearCase
  simp only [hV, hal, hcb]
  rcases lt_or_gt_of_ne hne with h | h
  · have hp : 0 < τ₁ - τ₀ := sub_pos.2 h
    simp only [hp, decide_true, if_true, hcross]
    rw [min_eq_left h.le, max_eq_right h.le] at hS
    exact main _ _ h hS
  · have hp : ¬ 0 < τ₁ - τ₀ := by linarith
    simp only [hp, decide_false, Bool.false_eq_true, if_false, hcross]
    rw [min_eq_right h.le, max_eq_left h.le] at hS
    exact main _ _ h hS

/-- A point on the line through two different points. -/
theorem exists_lineAt {a b p : Pt K} (hab : a ≠ b) (h : orient a b p = 0) : ∃ u, p = lineAt a b u := by
  have hd : b.x - a.x ≠ 0 ∨ b.y - a.y ≠ 0 := by
    by_contra hh
    push Not at hh
    exact hab (Pt.ext' (by linarith [hh.1]) (by linarith [hh.2]))
  unfold orient at h
  rcases hd with hx | hy
  · refine ⟨(p.x - a.x) / (b.x - a.x), Pt.ext' ?_ ?_⟩
    · simp only [lineAt]; field_simp; ring
    · simp only [lineAt]; field_simp; linarith
  · refine ⟨(p.y - a.y) / (b.y - a.y), Pt.ext' ?_ ?_⟩
    · simp only [lineAt]; field_simp; linarith
    · simp only [lineAt]; field_simp; ring

theorem lineAt_between {a b : Pt K} (hab : a ≠ b) {τ₀ τ₁ : K} (hne : τ₀ ≠ τ₁) (u : K) :
    (∃ w, 0 ≤ w ∧ w ≤ 1 ∧ lineAt a b u = lineAt (lineAt a b τ₀) (lineAt a b τ₁) w) ↔
      min τ₀ τ₁ ≤ u ∧ u ≤ max τ₀ τ₁ := by
  constructor
  · rintro ⟨w, w0, w1, e⟩
    rw [lineAt_lineAt] at e
    obtain rfl := lineAt_inj hab e
    rcases le_total τ₀ τ₁ with h | h
    · rw [min_eq_left h, max_eq_right h]
      have := mul_nonneg w0 (sub_nonneg.2 h)
      have := mul_nonneg (sub_nonneg.2 w1) (sub_nonneg.2 h)
      constructor <;> linarith
    · rw [min_eq_right h, max_eq_left h]
      have := mul_nonneg w0 (sub_nonneg.2 h)
      have := mul_nonneg (sub_nonneg.2 w1) (sub_nonneg.2 h)
      constructor <;> linarith
  · rintro ⟨h1, h2⟩
    have hd : τ₁ - τ₀ ≠ 0 := sub_ne_zero.2 (Ne.symm hne)
    refine ⟨(u - τ₀) / (τ₁ - τ₀), ?_, ?_, ?_⟩
    · rcases le_total τ₀ τ₁ with h | h
      · rw [min_eq_left h] at h1
        exact div_nonneg (by linarith) (by linarith)
      · rw [max_eq_left h] at h2
        exact div_nonneg_of_nonpos (by linarith) (by linarith)
    · rcases lt_or_gt_of_ne hne with h | h
      · rw [max_eq_right h.le] at h2
        rw [div_le_one (by linarith)]; linarith
      · rw [min_eq_right h.le] at h1
        rw [div_le_one_of_neg (by linarith)]; linarith
    · rw [lineAt_lineAt, div_mul_cancel₀ _ hd]
      congr 1; ring

/-- What the clip of a segment to a convex polygon returns: the segment if both ends are accepted; otherwise the piece in the
polygon; but if the line has a single point in common with the polygon, it may depend on the tests of the ends. -/
theorem cyrusBeck_cases {l : List (Pt K)} (hl : ConvexPoly l) {a b : Pt K} {tol : K} (hab : a ≠ b)
    (hcol : ∀ s ∈ sides l, orient a b s.1 = 0 → orient a b s.2 = 0 →
      s.1 ≠ s.2 ∧ ∀ v ∈ l, orient a b v = 0 → v = s.1 ∨ v = s.2) :
    ∃ ba bb : Bool, (ba = true ↔ Accepts tol l a) ∧ (bb = true ↔ Accepts tol l b) ∧ ∃ r, cyrusBeck a b l tol = .ok r ∧
      if (ba && bb) = true then r = some (a, b) else ClipSpec a b (InPoly l) r ∨
        ∃ lo hi t0 t1, lo ≤ hi ∧ (∀ u, InPoly l (lineAt a b u) ↔ lo ≤ u ∧ u ≤ hi) ∧
          ((t0, t1) = (lo, hi) ∨ (t0, t1) = (hi, lo)) ∧ r = cbFinish a b (toVector a b) ba bb t0 t1 := by
  have hne := hl.ne_nil
  have hp : 0 < l.length := List.length_pos_iff.2 hne
  have : ¬ ((toVector a b).x == 0 && (toVector a b).y == 0) = true := fun h => hab ((toVector_zero a b).1 h)
  obtain ⟨ba, h1, ga⟩ := pointInPolygonOrOnEdge_eq a hne tol
  obtain ⟨bb, h2, gb⟩ := pointInPolygonOrOnEdge_eq b hne tol
  refine ⟨ba, bb, ga, gb, ?_⟩
  unfold cyrusBeck
  simp only [this]
  rw [if_neg (by simp), h1, ok_bind, h2, ok_bind]
  by_cases hin : (ba && bb) = true
  · rw [if_pos hin]
    exact ⟨_, rfl, by rw [if_pos hin]⟩
  · simp only [if_neg hin]
    rw [rd_corner_lt hp hp, ok_bind]
    obtain ⟨r, h3, h4⟩ := cbScan_spec a b l hp l.length 0 0 (-1) (-1) (by omega)
      (Or.inl ⟨rfl, rfl, fun m hm => by omega⟩)
    rw [h3, ok_bind]
    match r, h4 with
    | .collinear r, h4 =>
      obtain ⟨⟨v, w⟩, hs, z1, z2, rfl⟩ := h4
      refine ⟨_, rfl, Or.inl ?_⟩
      obtain ⟨hvw, honly⟩ := hcol _ hs z1 z2
      simp only at z1 z2 hvw honly
      obtain ⟨τ₀, e0⟩ := exists_lineAt hab z1
      obtain ⟨τ₁, e1⟩ := exists_lineAt hab z2
      have hτ : τ₀ ≠ τ₁ := by rintro rfl; exact hvw (e0.trans e1.symm)
      simp only
      rw [e0, e1]
      apply collinearCase_spec hab hτ
      intro u
      rw [← lineAt_between hab hτ u, ← e0, ← e1]
      obtain ⟨mv, mw⟩ := mem_sides_mem hs
      constructor
      · intro hu
        have hline : ∀ x, orient v w x = (τ₁ - τ₀) * orient a b x := by
          intro x; rw [e0, e1]; unfold orient lineAt; ring
        apply hl.line_on_side hs hvw _ hu
        · rw [hline]; unfold orient lineAt; ring
        · intro x hx h0
          apply honly x hx
          rw [hline] at h0
          rcases mul_eq_zero.1 h0 with h | h
          · exact (hτ (by linarith)).elim
          · exact h
      · rintro ⟨c, c0, c1, e⟩
        rw [e]
        exact (hl.corner_inPoly mv).convex (hl.corner_inPoly mw) c0 c1
    | .found k i0 i1, h4 =>
      rcases h4 with ⟨rfl, h4⟩ | ⟨rfl, j0, j1, rfl, rfl, l0, l1, c0, c1, c2⟩
      · refine ⟨_, rfl, Or.inl (hl.no_crossing hab ?_)⟩
        intro s hs
        obtain ⟨m, hm, rfl⟩ := side_is_corner hp hs
        refine ⟨?_, (h4 m hm).2⟩
        have := (h4 m hm).1
        unfold onLeft at this
        exact decide_eq_decide.1 this
      · have d1 := onLeft_ne c0
        have d2 := onLeft_ne (a := a) (b := b) (poly := l) (hp := hp) (j := j1) (j' := j1 + 1) (by rw [c2, c1, Bool.not_not])
        obtain ⟨t0, t1, g, hperm⟩ := cbIntersections_eq a b hp l0 l1 d1 d2
        simp only [two_ne_zero, if_false, g, ok_bind]
        refine ⟨_, rfl, Or.inr ?_⟩
        have s0 := side_corner hp l0
        have s1 := side_corner hp l1
        unfold onLeft at c0 c1 c2
        by_cases hL : 0 < orient a b (corner l hp j0)
        · simp only [hL, decide_true, Bool.not_true, decide_eq_false_iff_not, not_lt, decide_eq_true_eq] at c0 c1 c2
          obtain ⟨q1, q2⟩ := hl.line_piece hab s1 s0 c1 c2 hL c0
          refine ⟨_, _, _, _, q2, q1, ?_, rfl⟩
          rcases hperm with e | e
          · exact Or.inl e
          · right
            rw [Prod.mk.injEq] at e ⊢
            exact ⟨e.2, e.1⟩
        · have hL' := not_lt.1 hL
          simp only [hL, decide_false, Bool.not_false, decide_eq_false_iff_not, not_lt, decide_eq_true_eq] at c0 c1 c2
          obtain ⟨q1, q2⟩ := hl.line_piece hab s0 s1 hL' c0 c1 c2
          refine ⟨_, _, _, _, q2, q1, ?_, rfl⟩
          rcases hperm with e | e
          · exact Or.inr e
          · left
            rw [Prod.mk.injEq] at e ⊢
            exact ⟨e.2, e.1⟩

theorem cyrusBeck_spec {l : List (Pt K)} (hl : ConvexPoly l) {a b : Pt K} {tol : K}
    (hcol : a ≠ b → ∀ s ∈ sides l, orient a b s.1 = 0 → orient a b s.2 = 0 →
      s.1 ≠ s.2 ∧ ∀ v ∈ l, orient a b v = 0 → v = s.1 ∨ v = s.2)
    (ha : Accepts tol l a ↔ InPoly l a) (hb : Accepts tol l b ↔ InPoly l b) :
    ∃ r, cyrusBeck a b l tol = .ok r ∧ (a = b → r = none) ∧ (a ≠ b → ClipSpec a b (InPoly l) r) := by
  by_cases hab : a = b
  · unfold cyrusBeck
    simp only [(toVector_zero a b).2 hab, if_true]
    exact ⟨_, rfl, fun _ => rfl, fun h => (h hab).elim⟩
  · obtain ⟨ba, bb, ga, gb, r, h1, h2⟩ := cyrusBeck_cases (tol := tol) hl hab (hcol hab)
    rw [ha] at ga
    rw [hb] at gb
    refine ⟨r, h1, fun h => (hab h).elim, fun _ => ?_⟩
    by_cases hin : (ba && bb) = true
    · rw [if_pos hin] at h2
      rw [h2]
      rw [Bool.and_eq_true] at hin
      have i1 := ga.1 hin.1
      have i2 := gb.1 hin.2
      refine ⟨0, 1, le_refl _, zero_lt_one, le_refl _, (lineAt_zero a b).symm, (lineAt_one a b).symm, ?_⟩
      intro u h0 h1
      exact ⟨fun _ => ⟨h0, h1⟩, fun _ => i1.convex i2 h0 h1⟩
    · rw [if_neg hin] at h2
      rcases h2 with h2 | ⟨lo, hi, t0, t1, q2, q1, ht, rfl⟩
      · exact h2
      · exact cbFinish_spec q2 q1 ga gb hin ht

end Celltree
