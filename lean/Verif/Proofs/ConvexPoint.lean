import Verif.Proofs.Convex

/-!
# Points in convex polygons
-/

set_option linter.unusedSectionVars false

namespace Celltree

variable {K : Type} [Field K] [LinearOrder K] [IsStrictOrderedRing K]

theorem orient_lineAt (s1 s2 a b : Pt K) (u : K) :
    orient s1 s2 (lineAt a b u) = (1 - u) * orient s1 s2 a + u * orient s1 s2 b := by
  unfold orient lineAt; ring

theorem along_lineAt (d a b : Pt K) (u : K) : along d (lineAt a b u) = (1 - u) * along d a + u * along d b := by
  unfold along lineAt; ring

theorem across_lineAt (d a b : Pt K) (u : K) : across d (lineAt a b u) = (1 - u) * across d a + u * across d b := by
  unfold across lineAt; ring

theorem InPoly.convex {l : List (Pt K)} {a b : Pt K} (ha : InPoly l a) (hb : InPoly l b) {u : K} (h0 : 0 ≤ u)
    (h1 : u ≤ 1) : InPoly l (lineAt a b u) := by
  intro s hs
  rw [orient_lineAt]
  exact add_nonneg (mul_nonneg (by linarith) (ha s hs)) (mul_nonneg h0 (hb s hs))

theorem InInterior.convex {l : List (Pt K)} {a b : Pt K} (ha : InInterior l a) (hb : InPoly l b) {u : K} (h0 : 0 ≤ u)
    (h1 : u < 1) : InInterior l (lineAt a b u) := by
  intro s hs hne
  rw [orient_lineAt]
  exact add_pos_of_pos_of_nonneg (mul_pos (by linarith) (ha s hs hne)) (mul_nonneg h0 (hb s hs))

theorem norm_pos {d : Pt K} (hd : d.x ≠ 0 ∨ d.y ≠ 0) : 0 < d.x ^ 2 + d.y ^ 2 := by
  rcases hd with h | h
  · have : 0 < d.x ^ 2 := by positivity
    have := sq_nonneg d.y
    linarith
  · have : 0 < d.y ^ 2 := by positivity
    have := sq_nonneg d.x
    linarith

/-- Orientation as seen from the third point. -/
theorem orient_from (d v w p : Pt K) : (d.x ^ 2 + d.y ^ 2) * orient v w p =
    (along d v - along d p) * (across d w - across d p) - (across d v - across d p) * (along d w - along d p) := by
  unfold orient along across; ring

/-- A point of the polygon has a corner behind it, in every direction. -/
theorem ConvexPoly.exists_le {l : List (Pt K)} (h : ConvexPoly l) {p : Pt K} (hp : InPoly l p) {d : Pt K}
    (hd : d.x ≠ 0 ∨ d.y ≠ 0) : ∃ v ∈ l, along d v ≤ along d p := by
  by_contra hno
  push Not at hno
  have hN := norm_pos hd
  have hmono : ∀ s ∈ sides l, (across d s.1 - across d p) / (along d s.1 - along d p) ≤
      (across d s.2 - across d p) / (along d s.2 - along d p) := by
    intro s hs
    obtain ⟨m1, m2⟩ := mem_sides_mem hs
    have h1 := sub_pos.2 (hno _ m1)
    have h2 := sub_pos.2 (hno _ m2)
    rw [div_le_div_iff₀ h1 h2]
    have := mul_nonneg hN.le (hp s hs)
    rw [orient_from d] at this
    linarith
  have hc := const_of_mono (fun v => (across d v - across d p) / (along d v - along d p)) hmono
  obtain ⟨v0, hv0⟩ := List.exists_mem_of_ne_nil _ h.ne_nil
  have hpv : p ≠ v0 := by
    rintro rfl
    exact lt_irrefl _ (hno _ hv0)
  apply h.not_collinear hpv
  intro w hw
  have := const_sides (fun v => (across d v - across d p) / (along d v - along d p)) hc hv0 hw
  have h1 := sub_pos.2 (hno _ hv0)
  have h2 := sub_pos.2 (hno _ hw)
  rw [div_eq_div_iff h1.ne' h2.ne'] at this
  have e := orient_from d v0 w p
  rw [orient_rot p v0 w] at e
  have : (d.x ^ 2 + d.y ^ 2) * orient p v0 w = 0 := by rw [e]; linarith
  rcases mul_eq_zero.1 this with h | h
  · exact (hN.ne' h).elim
  · exact h

theorem along_neg (d v : Pt K) : along ⟨-d.x, -d.y⟩ v = - along d v := by unfold along; ring

/-- … and one in front of it. -/
theorem ConvexPoly.exists_ge {l : List (Pt K)} (h : ConvexPoly l) {p : Pt K} (hp : InPoly l p) {d : Pt K}
    (hd : d.x ≠ 0 ∨ d.y ≠ 0) : ∃ v ∈ l, along d p ≤ along d v := by
  obtain ⟨v, hv, h1⟩ := h.exists_le hp (d := ⟨-d.x, -d.y⟩) (by simpa using hd)
  rw [along_neg, along_neg] at h1
  exact ⟨v, hv, by linarith⟩

/-- A point of the interior has a corner strictly in front of it. -/
theorem ConvexPoly.exists_gt {l : List (Pt K)} (h : ConvexPoly l) {p : Pt K} (hp : InInterior l p) {d : Pt K}
    (hd : d.x ≠ 0 ∨ d.y ≠ 0) : ∃ v ∈ l, along d p < along d v := by
  by_contra hno
  push Not at hno
  have hN := norm_pos hd
  obtain ⟨v, hv, hge⟩ := h.exists_ge hp.inPoly hd
  have he : along d v = along d p := le_antisymm (hno v hv) hge
  obtain ⟨w, hw, hwne⟩ := h.side_from hv
  obtain ⟨w', hw', hwne'⟩ := h.side_to hv
  have h1 := mul_pos hN (hp _ hw (Ne.symm hwne))
  have h2 := mul_pos hN (hp _ hw' hwne')
  simp only at h1 h2
  rw [orient_from d, he] at h1 h2
  have b1 := hno w (mem_sides_mem hw).2
  have b2 := hno w' (mem_sides_mem hw').1
  have c1 : 0 < across d v - across d p := by
    by_contra hlt
    push Not at hlt
    have := mul_nonneg_of_nonpos_of_nonpos hlt (sub_nonpos.2 b1)
    linarith
  have c2 := mul_nonneg (sub_nonneg.2 b2) c1.le
  linarith

theorem ConvexPoly.exists_lt {l : List (Pt K)} (h : ConvexPoly l) {p : Pt K} (hp : InInterior l p) {d : Pt K}
    (hd : d.x ≠ 0 ∨ d.y ≠ 0) : ∃ v ∈ l, along d v < along d p := by
  obtain ⟨v, hv, h1⟩ := h.exists_gt hp (d := ⟨-d.x, -d.y⟩) (by simpa using hd)
  rw [along_neg, along_neg] at h1
  exact ⟨v, hv, by linarith⟩

/-! ## Chords -/

/-- The point of a segment at a level between those of its ends. -/
theorem at_level (d : Pt K) {A B : Pt K} {c : K} (h1 : along d A ≤ c) (h2 : c ≤ along d B) (h3 : along d A < along d B) :
    ∃ u, 0 ≤ u ∧ u ≤ 1 ∧ along d (lineAt A B u) = c := by
  have hd : 0 < along d B - along d A := sub_pos.2 h3
  refine ⟨(c - along d A) / (along d B - along d A), div_nonneg (by linarith) hd.le, ?_, ?_⟩
  · rw [div_le_one hd]; linarith
  · rw [along_lineAt]
    field_simp
    ring

theorem across_le_iff {d : Pt K} (hd : d.x ≠ 0 ∨ d.y ≠ 0) {A B p : Pt K} {u : K} (h3 : along d A < along d B)
    (hu : along d (lineAt A B u) = along d p) : 0 ≤ orient A B p ↔ across d (lineAt A B u) ≤ across d p := by
  have hN := norm_pos hd
  have e : (d.x ^ 2 + d.y ^ 2) * orient A B p =
      (along d B - along d A) * (across d p - across d (lineAt A B u)) := by
    rw [orient_along_across d, ← hu, along_lineAt, across_lineAt]; ring
  have h4 := sub_pos.2 h3
  constructor
  · intro h
    have := mul_nonneg hN.le h
    rw [e] at this
    have := nonneg_of_mul_nonneg_right this h4
    linarith
  · intro h
    have : 0 ≤ (d.x ^ 2 + d.y ^ 2) * orient A B p := by rw [e]; exact mul_nonneg h4.le (by linarith)
    exact nonneg_of_mul_nonneg_right this hN

theorem across_ge_iff {d : Pt K} (hd : d.x ≠ 0 ∨ d.y ≠ 0) {A B p : Pt K} {u : K} (h3 : along d B < along d A)
    (hu : along d (lineAt A B u) = along d p) : 0 ≤ orient A B p ↔ across d p ≤ across d (lineAt A B u) := by
  have hN := norm_pos hd
  have e : (d.x ^ 2 + d.y ^ 2) * orient A B p =
      (along d A - along d B) * (across d (lineAt A B u) - across d p) := by
    rw [orient_along_across d, ← hu, along_lineAt, across_lineAt]; ring
  have h4 := sub_pos.2 h3
  constructor
  · intro h
    have := mul_nonneg hN.le h
    rw [e] at this
    have := nonneg_of_mul_nonneg_right this h4
    linarith
  · intro h
    have : 0 ≤ (d.x ^ 2 + d.y ^ 2) * orient A B p := by rw [e]; exact mul_nonneg h4.le (by linarith)
    exact nonneg_of_mul_nonneg_right this hN

theorem across_lt_of {d : Pt K} (hd : d.x ≠ 0 ∨ d.y ≠ 0) {A B p : Pt K} {u : K} (h3 : along d A < along d B)
    (hu : along d (lineAt A B u) = along d p) (h : across d (lineAt A B u) < across d p) : 0 < orient A B p := by
  have hN := norm_pos hd
  have e : (d.x ^ 2 + d.y ^ 2) * orient A B p =
      (along d B - along d A) * (across d p - across d (lineAt A B u)) := by
    rw [orient_along_across d, ← hu, along_lineAt, across_lineAt]; ring
  have : 0 < (d.x ^ 2 + d.y ^ 2) * orient A B p := by rw [e]; exact mul_pos (sub_pos.2 h3) (sub_pos.2 h)
  exact (mul_pos_iff_of_pos_left hN).1 this

/-- A point at the same level as two others, and between them. -/
theorem between_at_level {d : Pt K} (hd : d.x ≠ 0 ∨ d.y ≠ 0) {q r p : Pt K} (h1 : along d q = along d p)
    (h2 : along d r = along d p) (h3 : across d q ≤ across d p) (h4 : across d p ≤ across d r) :
    ∃ u, 0 ≤ u ∧ u ≤ 1 ∧ p = lineAt q r u := by
  rcases lt_or_eq_of_le (le_trans h3 h4) with h | h
  · have hpos : 0 < across d r - across d q := sub_pos.2 h
    refine ⟨(across d p - across d q) / (across d r - across d q), div_nonneg (by linarith) hpos.le, ?_, ?_⟩
    · rw [div_le_one hpos]; linarith
    · apply along_across_inj hd
      · rw [along_lineAt, h1, h2]; ring
      · rw [across_lineAt]; field_simp; ring
  · refine ⟨0, le_refl _, zero_le_one, ?_⟩
    rw [lineAt_zero]
    exact along_across_inj hd h1.symm (le_antisymm (by rw [h]; exact h4) h3)

/-- The part of a level line in the polygon is between the side that goes up and the side that goes down through it. -/
theorem ConvexPoly.chord {l : List (Pt K)} (h : ConvexPoly l) {d : Pt K} (hd : d.x ≠ 0 ∨ d.y ≠ 0) {U D : Pt K × Pt K}
    (hU : U ∈ sides l) (hD : D ∈ sides l) {p : Pt K} (u1 : along d U.1 ≤ along d p) (u2 : along d p ≤ along d U.2)
    (u3 : along d U.1 < along d U.2) (d1 : along d D.2 ≤ along d p) (d2 : along d p ≤ along d D.1)
    (d3 : along d D.2 < along d D.1) :
    InPoly l p ↔ 0 ≤ orient U.1 U.2 p ∧ 0 ≤ orient D.1 D.2 p := by
  refine ⟨fun hp => ⟨hp U hU, hp D hD⟩, fun ⟨g1, g2⟩ => ?_⟩
  obtain ⟨u, a1, a2, a3⟩ := at_level d u1 u2 u3
  obtain ⟨v, b1, b2, b3⟩ := at_level d (A := D.2) (B := D.1) d1 d2 d3
  rw [across_le_iff hd u3 a3] at g1
  have e : lineAt D.2 D.1 v = lineAt D.1 D.2 (1 - v) := Pt.ext' (by simp only [lineAt]; ring) (by simp only [lineAt]; ring)
  rw [e] at b3
  rw [across_ge_iff hd d3 b3] at g2
  obtain ⟨w, c1, c2, rfl⟩ := between_at_level hd a3 b3 g1 g2
  obtain ⟨m1, m2⟩ := mem_sides_mem hU
  obtain ⟨n1, n2⟩ := mem_sides_mem hD
  exact ((h.corner_inPoly m1).convex (h.corner_inPoly m2) a1 a2).convex
    ((h.corner_inPoly n1).convex (h.corner_inPoly n2) (by linarith) (by linarith)) c1 c2

/-- A side that goes up through a level is not left of one that goes down. -/
theorem ConvexPoly.not_outside_both {l : List (Pt K)} (h : ConvexPoly l) {d : Pt K} (hd : d.x ≠ 0 ∨ d.y ≠ 0)
    {U D : Pt K × Pt K} (hU : U ∈ sides l) (hD : D ∈ sides l) {p : Pt K} (u1 : along d U.1 ≤ along d p)
    (u2 : along d p ≤ along d U.2) (u3 : along d U.1 < along d U.2) (d1 : along d D.2 ≤ along d p)
    (d2 : along d p ≤ along d D.1) (d3 : along d D.2 < along d D.1) : 0 < orient U.1 U.2 p ∨ 0 ≤ orient D.1 D.2 p := by
  obtain ⟨u, a1, a2, a3⟩ := at_level d u1 u2 u3
  rcases lt_or_ge (across d (lineAt U.1 U.2 u)) (across d p) with g | g
  · left; exact across_lt_of hd u3 a3 g
  · right
    obtain ⟨m1, m2⟩ := mem_sides_mem hU
    have hq := ((h.corner_inPoly m1).convex (h.corner_inPoly m2) a1 a2) D hD
    obtain ⟨v, b1, b2, b3⟩ := at_level d (A := D.2) (B := D.1) d1 d2 d3
    have e : lineAt D.2 D.1 v = lineAt D.1 D.2 (1 - v) :=
      Pt.ext' (by simp only [lineAt]; ring) (by simp only [lineAt]; ring)
    rw [e] at b3
    rw [across_ge_iff hd d3 (b3.trans a3.symm)] at hq
    rw [across_ge_iff hd d3 b3]
    exact le_trans g hq

/-- A point of the polygon that is not in the interior is on a side. -/
theorem ConvexPoly.on_side {l : List (Pt K)} (h : ConvexPoly l) {p : Pt K} (hp : InPoly l p) (hn : ¬ InInterior l p) :
    ∃ s ∈ sides l, s.1 ≠ s.2 ∧ ∃ u, 0 ≤ u ∧ u ≤ 1 ∧ p = lineAt s.1 s.2 u := by
  unfold InInterior at hn
  push Not at hn
  obtain ⟨⟨a, b⟩, hs, hne, hle⟩ := hn
  simp only at hne hle
  have h0 : orient a b p = 0 := le_antisymm hle (hp _ hs)
  set d : Pt K := ⟨b.x - a.x, b.y - a.y⟩ with hdd
  have hd : d.x ≠ 0 ∨ d.y ≠ 0 := by
    by_contra hh
    push Not at hh
    exact hne (Pt.ext' (by have := hh.1; simp only [hdd] at this; linarith)
      (by have := hh.2; simp only [hdd] at this; linarith))
  have hN := norm_pos hd
  have hor : ∀ v, orient a b v = across d v - across d a := by
    intro v; simp only [hdd, orient, across]; ring
  have hab : along d a < along d b := by
    have : along d b - along d a = d.x ^ 2 + d.y ^ 2 := by simp only [hdd, along]; ring
    linarith
  have main : ∀ s ∈ sides l, along d s.1 ≤ along d p → along d p ≤ along d s.2 → along d s.1 < along d s.2 →
      ∃ s ∈ sides l, s.1 ≠ s.2 ∧ ∃ u, 0 ≤ u ∧ u ≤ 1 ∧ p = lineAt s.1 s.2 u := by
    intro s hs' g1 g2 g3
    obtain ⟨u, a1, a2, a3⟩ := at_level d g1 g2 g3
    have i1 := (across_le_iff hd g3 a3).1 (hp s hs')
    obtain ⟨m1, m2⟩ := mem_sides_mem hs'
    have i2 := ((h.corner_inPoly m1).convex (h.corner_inPoly m2) a1 a2) _ hs
    simp only at i2
    rw [hor] at i2 h0
    refine ⟨s, hs', fun e => by rw [e] at g3; exact lt_irrefl _ g3, u, a1, a2, ?_⟩
    exact along_across_inj hd a3.symm (by linarith)
  obtain ⟨ma, mb⟩ := mem_sides_mem hs
  simp only at ma mb
  by_cases hall : ∃ v ∈ l, along d v < along d p
  · obtain ⟨v, hv, hlt⟩ := hall
    obtain ⟨w, hw, hge⟩ := h.exists_ge hp hd
    obtain ⟨s, hs', f1, f2⟩ := exists_up (fun v => decide (along d p ≤ along d v)) hv hw
      (by simpa using hlt) (by simpa using hge)
    simp only [decide_eq_false_iff_not, not_le, decide_eq_true_eq] at f1 f2
    exact main s hs' f1.le f2 (lt_of_lt_of_le f1 f2)
  · push Not at hall
    obtain ⟨v, hv, hle'⟩ := h.exists_le hp hd
    obtain ⟨s, hs', f1, f2⟩ := exists_up (fun v => decide (along d p < along d v)) hv mb
      (by simpa using hle') (by simpa using lt_of_le_of_lt (hall a ma) hab)
    simp only [decide_eq_false_iff_not, not_lt, decide_eq_true_eq] at f1 f2
    exact main s hs' f1 f2.le (lt_of_le_of_lt f1 f2)

/-! ## The even-odd rule -/

/-- Upward. -/
def up : Pt K := ⟨0, 1⟩

theorem along_up (v : Pt K) : along up v = v.y := by simp [along, up]
theorem up_ne : (up : Pt K).x ≠ 0 ∨ (up : Pt K).y ≠ 0 := Or.inr (by simp [up])

/-- A point in the interior is inside by the even-odd rule. -/
theorem ConvexPoly.interior_odd {l : List (Pt K)} (h : ConvexPoly l) {p : Pt K} (hp : InInterior l p) :
    Odd ((sides l).countP fun s => decide (Crosses p s)) := by
  have e : (sides l).countP (fun s => decide (Crosses p s)) =
      (sides l).countP (fun s => !decide (p.y < along up s.1) && decide (p.y < along up s.2)) := by
    apply List.countP_congr
    intro s hs
    simp only [along_up, decide_eq_true_eq, Bool.and_eq_true, Bool.not_eq_true', decide_eq_false_iff_not, not_lt]
    constructor
    · rintro (⟨h1, h2, _⟩ | ⟨h1, h2, h3⟩)
      · exact ⟨h1, h2⟩
      · have := hp.inPoly s hs
        linarith
    · rintro ⟨h1, h2⟩
      left
      refine ⟨h1, h2, hp s hs ?_⟩
      intro e; rw [e] at h1; linarith
  rw [e]
  have hle := h.ups_le_one up p.y
  obtain ⟨v, hv, h1⟩ := h.exists_le hp.inPoly (up_ne (K := K))
  obtain ⟨w, hw, h2⟩ := h.exists_gt hp (up_ne (K := K))
  rw [along_up p] at h1 h2
  obtain ⟨s, hs, f1, f2⟩ := exists_up (fun v => decide (p.y < along up v)) hv hw
    (by simpa using h1) (by simpa using h2)
  have hpos : 0 < (sides l).countP (fun s => !decide (p.y < along up s.1) && decide (p.y < along up s.2)) :=
    List.countP_pos_iff.2 ⟨s, hs, by rw [f1, f2]; rfl⟩
  have : (sides l).countP (fun s => !decide (p.y < along up s.1) && decide (p.y < along up s.2)) = 1 := by omega
  rw [this]
  exact odd_one

theorem countP_disjoint {α : Type} (f g k : α → Bool) (l : List α) (h : ∀ x ∈ l, f x = (g x || k x))
    (h' : ∀ x ∈ l, ¬ (g x = true ∧ k x = true)) : l.countP f = l.countP g + l.countP k := by
  induction l with
  | nil => rfl
  | cons a l ih =>
    have e := ih (fun x hx => h x (List.mem_cons_of_mem _ hx)) (fun x hx => h' x (List.mem_cons_of_mem _ hx))
    have ha := h a List.mem_cons_self
    have hb := h' a List.mem_cons_self
    simp only [List.countP_cons, e, ha]
    cases g1 : g a <;> cases g2 : k a <;> simp_all <;> omega

/-- A point that is inside by the even-odd rule is in the polygon. -/
theorem ConvexPoly.odd_inPoly {l : List (Pt K)} (h : ConvexPoly l) {p : Pt K}
    (ho : Odd ((sides l).countP fun s => decide (Crosses p s))) : InPoly l p := by
  have e := countP_disjoint (fun s : Pt K × Pt K => decide (Crosses p s))
    (fun s => (!decide (p.y < along up s.1) && decide (p.y < along up s.2)) && decide (0 < orient s.1 s.2 p))
    (fun s => (decide (p.y < along up s.1) && !decide (p.y < along up s.2)) && decide (orient s.1 s.2 p < 0)) (sides l)
    (by
      intro s _
      rw [Bool.eq_iff_iff]
      refine decide_eq_true_iff.trans ?_
      simp only [along_up, decide_eq_true_eq, Bool.or_eq_true, Bool.and_eq_true, Bool.not_eq_true',
        decide_eq_false_iff_not, not_lt]
      unfold Crosses
      tauto)
    (by
      intro s _
      simp only [decide_eq_true_eq, Bool.and_eq_true, Bool.not_eq_true', decide_eq_false_iff_not, not_lt]
      rintro ⟨⟨_, h1⟩, ⟨_, h2⟩⟩
      linarith)
  have hups := h.ups_le_one up p.y
  have hdowns := hups
  rw [ups_eq_downs (fun v => decide (p.y < along up v))] at hdowns
  have le1 : (sides l).countP (fun s => (!decide (p.y < along up s.1) && decide (p.y < along up s.2)) &&
      decide (0 < orient s.1 s.2 p)) ≤ 1 :=
    le_trans (List.countP_mono_left fun s _ hs => (Bool.and_eq_true _ _ ▸ hs).1) hups
  have le2 : (sides l).countP (fun s => (decide (p.y < along up s.1) && !decide (p.y < along up s.2)) &&
      decide (orient s.1 s.2 p < 0)) ≤ 1 :=
    le_trans (List.countP_mono_left fun s _ hs => (Bool.and_eq_true _ _ ▸ hs).1) hdowns
  rw [e] at ho
  have hcases : ((sides l).countP (fun s => (!decide (p.y < along up s.1) && decide (p.y < along up s.2)) &&
      decide (0 < orient s.1 s.2 p)) = 1 ∧ (sides l).countP (fun s => (decide (p.y < along up s.1) &&
      !decide (p.y < along up s.2)) && decide (orient s.1 s.2 p < 0)) = 0) ∨
      ((sides l).countP (fun s => (!decide (p.y < along up s.1) && decide (p.y < along up s.2)) &&
      decide (0 < orient s.1 s.2 p)) = 0 ∧ (sides l).countP (fun s => (decide (p.y < along up s.1) &&
      !decide (p.y < along up s.2)) && decide (orient s.1 s.2 p < 0)) = 1) := by
    rw [Nat.odd_iff] at ho
    omega
  have hpy : ∀ v : Pt K, along up v = v.y := along_up
  rcases hcases with ⟨c1, c2⟩ | ⟨c1, c2⟩
  · obtain ⟨U, hU, fU⟩ := List.countP_pos_iff.1 (show 0 < _ by rw [c1]; exact one_pos)
    have hposU : 0 < (sides l).countP (fun s => !decide (p.y < along up s.1) && decide (p.y < along up s.2)) :=
      List.countP_pos_iff.2 ⟨U, hU, (Bool.and_eq_true _ _ ▸ fU).1⟩
    have hposD := hposU
    rw [ups_eq_downs (fun v => decide (p.y < along up v))] at hposD
    obtain ⟨D, hD, fD⟩ := List.countP_pos_iff.1 hposD
    have nD := List.countP_eq_zero.1 c2 D hD
    simp only [decide_eq_true_eq, Bool.and_eq_true, Bool.not_eq_true', decide_eq_false_iff_not, not_lt] at fU fD nD
    have : 0 ≤ orient D.1 D.2 p := by
      by_contra hh
      exact nD ⟨fD, not_le.1 hh⟩
    rw [h.chord up_ne hU hD (by rw [hpy p]; exact fU.1.1) (by rw [hpy p]; exact fU.1.2.le)
      (lt_of_le_of_lt fU.1.1 fU.1.2) (by rw [hpy p]; exact fD.2) (by rw [hpy p]; exact fD.1.le)
      (lt_of_le_of_lt fD.2 fD.1)]
    exact ⟨fU.2.le, this⟩
  · obtain ⟨D, hD, fD⟩ := List.countP_pos_iff.1 (show 0 < _ by rw [c2]; exact one_pos)
    have hposD : 0 < (sides l).countP (fun s => decide (p.y < along up s.1) && !decide (p.y < along up s.2)) :=
      List.countP_pos_iff.2 ⟨D, hD, (Bool.and_eq_true _ _ ▸ fD).1⟩
    have hposU := hposD
    rw [← ups_eq_downs (fun v => decide (p.y < along up v))] at hposU
    obtain ⟨U, hU, fU⟩ := List.countP_pos_iff.1 hposU
    have nU := List.countP_eq_zero.1 c1 U hU
    simp only [decide_eq_true_eq, Bool.and_eq_true, Bool.not_eq_true', decide_eq_false_iff_not, not_lt] at fU fD nU
    have hU0 : orient U.1 U.2 p ≤ 0 := by
      by_contra hh
      exact nU ⟨fU, not_le.1 hh⟩
    have := h.not_outside_both up_ne hU hD (p := p) (by rw [hpy p]; exact fU.1) (by rw [hpy p]; exact fU.2.le)
      (lt_of_le_of_lt fU.1 fU.2) (by rw [hpy p]; exact fD.1.2) (by rw [hpy p]; exact fD.1.1.le)
      (lt_of_le_of_lt fD.1.2 fD.1.1)
    have h4 := fD.2
    rcases this with h' | h' <;> linarith

end Celltree
